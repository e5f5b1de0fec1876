import Verif.Lemmas.Body
import Verif.Model.Outgoing
import Verif.Spec.Message

/-! Lemmas about sending a body. -/

namespace HttpIo
open Spec

/-- The bytes one `write` call on an outgoing body emits. -/
def emitted (buf : Bytes) : Bytes :=
  if buf = [] then [] else showHex buf.length ++ [13, 10] ++ buf ++ [13, 10]

section
variable {c : Cfg} {σ : Type} [LawfulWriter σ]

theorem OutgoingBody.write_sent {b b' : OutgoingBody c σ} {buf : Bytes} {r : Except Err Nat}
    (h : b.writeImpl buf = (r, b')) :
    wire b.socket <+: wire b'.socket ∧
      ∃ p, p <+: emitted buf ∧ sent b'.socket = sent b.socket ++ p ∧ (∀ k, r = .ok k → p = emitted buf ∧ k = buf.length) := by
  unfold OutgoingBody.writeImpl at h
  by_cases h0 : buf.length = 0
  · rw [if_pos h0] at h
    have hb : buf = [] := List.eq_nil_of_length_eq_zero h0
    simp only [Prod.mk.injEq] at h
    rw [← h.1, ← h.2]
    refine ⟨List.prefix_refl _, [], List.nil_prefix, by simp, fun k hk => ?_⟩
    unfold emitted
    simp only [Except.ok.injEq] at hk
    exact ⟨by rw [if_pos hb], by omega⟩
  · have hb : buf ≠ [] := by rintro rfl; exact h0 rfl
    have hem : emitted buf = [showHex buf.length, b!"\r\n"].flatten ++ (buf ++ [b!"\r\n"].flatten) := by
      unfold emitted; rw [if_neg hb]; simp
    rw [hem]
    rw [if_neg h0] at h
    rcases h1 : writePieces c b.socket [showHex buf.length, b!"\r\n"] with ⟨r1, w1⟩
    rw [h1] at h
    obtain ⟨g1, p1, g2, g3, g4⟩ := writePieces_sent h1
    cases r1 with
    | error e =>
      simp only [Prod.mk.injEq] at h
      rw [← h.1, ← h.2]
      exact ⟨g1, p1, g2.trans (List.prefix_append _ _), g3, by simp⟩
    | ok _ =>
      dsimp only at h
      have g4 := g4 rfl
      subst g4
      rcases h2 : writeAll c w1 buf with ⟨r2, w2⟩
      rw [h2] at h
      have k1 := LawfulWriter.writeAll_wire c w1 buf
      rw [h2] at k1
      cases r2 with
      | error e =>
        obtain ⟨p2, k2, k3⟩ := LawfulWriter.writeAll_err_sent h2
        simp only [Prod.mk.injEq] at h
        rw [← h.1, ← h.2]
        refine ⟨g1.trans k1, _ ++ p2, (List.prefix_append_right_inj _).2 (k2.trans (List.prefix_append _ _)), ?_, by simp⟩
        rw [k3, g3, List.append_assoc]
      | ok _ =>
        dsimp only at h
        have k2 := LawfulWriter.writeAll_ok_sent h2
        rcases h3 : writePieces c w2 [b!"\r\n"] with ⟨r3, w3⟩
        rw [h3] at h
        obtain ⟨l1, p3, l2, l3, l4⟩ := writePieces_sent h3
        have hpre : [showHex buf.length, b!"\r\n"].flatten ++ (buf ++ p3) <+:
            [showHex buf.length, b!"\r\n"].flatten ++ (buf ++ [b!"\r\n"].flatten) :=
          (List.prefix_append_right_inj _).2 ((List.prefix_append_right_inj _).2 l2)
        have hs : sent w3 = sent b.socket ++ ([showHex buf.length, b!"\r\n"].flatten ++ (buf ++ p3)) := by
          rw [l3, k2, g3]; simp
        cases r3 with
        | error e =>
          simp only [Prod.mk.injEq] at h
          rw [← h.1, ← h.2]
          exact ⟨g1.trans (k1.trans l1), _, hpre, hs, by simp⟩
        | ok _ =>
          simp only [Prod.mk.injEq] at h
          rw [← h.1, ← h.2]
          refine ⟨g1.trans (k1.trans l1), _, hpre, hs, fun k hk => ?_⟩
          simp only [Except.ok.injEq] at hk
          exact ⟨by rw [l4 rfl], hk.symm⟩

theorem OutgoingBody.write_def (b : OutgoingBody c σ) (buf : Bytes) : write b buf = b.writeImpl buf := rfl
theorem OutgoingBody.flush_def (b : OutgoingBody c σ) : flush b = b.flushImpl := rfl

/-- A schedule of calls on an outgoing body. -/
theorem OutgoingBody.perform_sent {b b' : OutgoingBody c σ} {cs : List WCall} {ok : Bool} (h : perform b cs = (ok, b')) :
    wire b.socket <+: wire b'.socket ∧
      ∃ p, p <+: ((written cs).map emitted).flatten ∧ sent b'.socket = sent b.socket ++ p ∧
        (ok = true → p = ((written cs).map emitted).flatten) := by
  induction cs generalizing b with
  | nil =>
    simp only [perform, Prod.mk.injEq] at h
    rw [← h.2]; exact ⟨List.prefix_refl _, [], List.nil_prefix, by simp, fun _ => rfl⟩
  | cons cl cs ih =>
    cases cl with
    | flush =>
      rw [perform] at h
      rcases hf : flush b with ⟨r, b1⟩
      rw [hf] at h
      have hs : sent b1.socket = sent b.socket ∧ wire b.socket <+: wire b1.socket := by
        rw [OutgoingBody.flush_def] at hf
        unfold OutgoingBody.flushImpl at hf
        simp only [Prod.mk.injEq] at hf
        rw [← hf.2]
        exact ⟨LawfulWriter.flush_sent b.socket, LawfulWriter.flush_wire b.socket⟩
      cases r with
      | error e =>
        simp only [Prod.mk.injEq] at h
        rw [← h.1, ← h.2]
        exact ⟨hs.2, [], List.nil_prefix, by rw [hs.1]; simp, by simp⟩
      | ok _ =>
        obtain ⟨h1, p, h2, h3, h4⟩ := ih h
        exact ⟨hs.2.trans h1, p, h2, by rw [h3, hs.1], h4⟩
    | write buf =>
      rw [perform] at h
      rcases hf : write b buf with ⟨r, b1⟩
      rw [hf] at h
      obtain ⟨g1, p, g2, g3, g4⟩ := OutgoingBody.write_sent hf
      have hfl : ((written (.write buf :: cs)).map emitted).flatten = emitted buf ++ ((written cs).map emitted).flatten := rfl
      rw [hfl]
      cases r with
      | error e =>
        simp only [Prod.mk.injEq] at h
        rw [← h.1, ← h.2]
        exact ⟨g1, p, g2.trans (List.prefix_append _ _), g3, by simp⟩
      | ok k =>
        dsimp only at h
        obtain ⟨g5, g6⟩ := g4 k rfl
        rw [if_pos g6] at h
        obtain ⟨h1, q, h2, h3, h4⟩ := ih h
        refine ⟨g1.trans h1, p ++ q, ?_, by rw [h3, g3, List.append_assoc], fun ho => by rw [h4 ho, g5]⟩
        rw [g5]; exact (List.prefix_append_right_inj _).2 h2

theorem IsPrefix.antisymm {a b : Bytes} (h1 : a <+: b) (h2 : b <+: a) : a = b :=
  h1.eq_of_length (Nat.le_antisymm h1.length_le h2.length_le)

/-- Completing a request with a body. -/
theorem OutgoingBody.complete_ok {b : OutgoingBody c σ} {s' : σ} (h : (OutgoingRequest.WithBody b).complete = .ok s') :
    sent s' = sent b.socket ++ b!"0\r\n\r\n" ∧ wire s' = sent s' := by
  unfold OutgoingRequest.complete at h
  dsimp only at h
  rcases h1 : writePieces c b.socket [b!"0\r\n\r\n"] with ⟨r1, w1⟩
  rw [h1] at h
  cases r1 with
  | error e => simp at h
  | ok _ =>
    dsimp only at h
    obtain ⟨_, p, _, g3, g4⟩ := writePieces_sent h1
    rcases h2 : flush w1 with ⟨r2, w2⟩
    rw [h2] at h
    cases r2 with
    | error e => simp at h
    | ok _ =>
      dsimp only at h
      have g5 := LawfulWriter.flush_ok_wire h2
      have g6 := LawfulWriter.flush_sent w1
      rw [h2] at g6
      dsimp only at g6
      cases h3 : w2.intoInner with
      | error x => rw [h3] at h; simp at h
      | ok s =>
        rw [h3] at h
        simp only [Except.ok.injEq] at h
        subst h
        obtain ⟨g7, g8⟩ := BufWriter.intoInner_ok h3
        refine ⟨by rw [g7, g6, g3, g4 rfl]; simp, ?_⟩
        exact IsPrefix.antisymm (LawfulWriter.wire_sent s) (by rw [g7, ← g5]; exact g8)

/-- A failed completion leaves a prefix of the whole request. -/
theorem OutgoingBody.complete_err {b : OutgoingBody c σ} {e : Err} {s' : σ}
    (h : (OutgoingRequest.WithBody b).complete = .error (e, s')) :
    sent s' <+: sent b.socket ++ b!"0\r\n\r\n" := by
  unfold OutgoingRequest.complete at h
  dsimp only at h
  rcases h1 : writePieces c b.socket [b!"0\r\n\r\n"] with ⟨r1, w1⟩
  rw [h1] at h
  obtain ⟨_, p, g2, g3, g4⟩ := writePieces_sent h1
  have hw1 : sent w1 <+: sent b.socket ++ b!"0\r\n\r\n" := by
    rw [g3]; exact (List.prefix_append_right_inj _).2 (by simpa using g2)
  cases r1 with
  | error e =>
    simp only [Except.error.injEq, Prod.mk.injEq] at h
    rw [← h.2]
    exact (BufWriter.dropped_sent w1).1.trans hw1
  | ok _ =>
    dsimp only at h
    rcases h2 : flush w1 with ⟨r2, w2⟩
    rw [h2] at h
    have g6 := LawfulWriter.flush_sent w1
    rw [h2] at g6
    dsimp only at g6
    cases r2 with
    | error e =>
      simp only [Except.error.injEq, Prod.mk.injEq] at h
      rw [← h.2]
      exact (BufWriter.dropped_sent w2).1.trans (by rw [g6]; exact hw1)
    | ok _ =>
      dsimp only at h
      cases h3 : w2.intoInner with
      | ok s => rw [h3] at h; simp at h
      | error x =>
        rw [h3] at h
        obtain ⟨e', w3⟩ := x
        simp only [Except.error.injEq, Prod.mk.injEq] at h
        rw [← h.2]
        have := (BufWriter.intoInner_err h3).1
        exact (BufWriter.dropped_sent w3).1.trans (by rw [this, g6]; exact hw1)

end

theorem chunksFor (bufs : List Bytes) (hb : ∀ b ∈ bufs, b.length < 2 ^ 64) :
    ∃ chs, ChunksFor chs bufs ∧ (bufs.map emitted).flatten = (chs.map Chunk.bytes).flatten := by
  induction bufs with
  | nil => exact ⟨[], ⟨by simp, rfl⟩, rfl⟩
  | cons b bufs ih =>
    obtain ⟨chs, ⟨h1, h2⟩, h3⟩ := ih fun x hx => hb x (by simp [hx])
    by_cases h0 : b = []
    · refine ⟨chs, ⟨h1, by simp [h0, h2]⟩, ?_⟩
      subst h0
      simp only [List.map_cons, List.flatten_cons, h3]
      rfl
    · refine ⟨⟨showHex b.length, b, [13, 10]⟩ :: chs, ⟨?_, ?_⟩, ?_⟩
      · intro ch hch
        simp only [List.mem_cons] at hch
        rcases hch with rfl | hch
        · exact ⟨⟨.inl (numeral_showHex _), h0, hb b (by simp), rfl⟩, rfl⟩
        · exact h1 ch hch
      · simp [h0, h2]
      · simp only [List.map_cons, List.flatten_cons, h3]
        unfold emitted
        rw [if_neg h0]; rfl

theorem chunkedData_for {chs : List Chunk} {bufs : List Bytes} (h : ChunksFor chs bufs) : chunkedData chs = bufs.flatten := by
  unfold chunkedData
  rw [h.2]
  induction bufs generalizing chs with
  | nil => rfl
  | cons b bufs ih =>
    by_cases h0 : b = []
    · rw [List.filter_cons_of_neg (by simp [h0]), h0]
      exact @ih chs ⟨h.1, by rw [h.2, List.filter_cons_of_neg (by simp [h0])]⟩
    · rw [List.filter_cons_of_pos (by simp [h0])]
      simp only [List.flatten_cons, List.append_cancel_left_eq]
      have h2 := h.2
      rw [List.filter_cons_of_pos (by simp [h0])] at h2
      cases chs with
      | nil => simp at h2
      | cons ch chs =>
        simp only [List.map_cons, List.cons.injEq] at h2
        exact @ih chs ⟨fun x hx => h.1 x (by simp [hx]), h2.2⟩

/-- Chunks delivered without interruptions. -/
theorem deliversChunked_map (c : Cfg) (chs : List Chunk) (last : Bytes) (rest : List Ev) :
    DeliversChunked c ((chunkedBytes chs last).map .byte ++ rest) chs last rest := by
  induction chs with
  | nil =>
    have : chunkedBytes [] last = last ++ [13, 10] := by simp [chunkedBytes]
    rw [this]
    exact .last (delivers_map c (last ++ [13, 10]) rest)
  | cons ch chs ih =>
    have : (chunkedBytes (ch :: chs) last).map Ev.byte ++ rest = (ch.size ++ [13, 10]).map .byte ++ (ch.data.map .byte ++
        (ch.tail.map .byte ++ ((chunkedBytes chs last).map .byte ++ rest))) := by
      simp [chunkedBytes, Chunk.bytes]
    rw [this]
    exact .chunk (delivers_map _ _ _) (delivers_map _ _ _) ih

end HttpIo
