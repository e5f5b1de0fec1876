import Verif.Lemmas.Body

/-! Reads with an empty buffer, and the pending events seen through `Yields`. -/

namespace HttpIo
open Spec

theorem seen_append (a b : List (Except Err Bytes)) : seen (a ++ b) = seen a ++ seen b := by
  induction a with
  | nil => rfl
  | cons r a ih => cases r <;> simp [seen, ih]

theorem seen_map (xs : List Bytes) : seen (xs.map .ok) = xs.flatten.map .byte := by
  induction xs with
  | nil => rfl
  | cons x xs ih => simp [seen, ih]

theorem seen_replicate (k : Nat) : seen (List.replicate k (.ok [])) = [] := by
  induction k with
  | zero => rfl
  | succ k ih => simp [List.replicate_succ, seen, ih]

theorem Spec.Pieces.seen {rs : List (Except Err Bytes)} {p : Bytes} (h : Pieces rs p) : seen rs = p.map .byte := by
  obtain ⟨xs, rfl, _, h3⟩ := h
  rw [seen_map, h3]

/-- A reader that yields `bs` has just these bytes pending. -/
theorem trace_of_yields {σ : Type} [LawfulReader σ] {s : σ} {bs : Bytes} (h : Yields s bs) :
    trace s = bs.map .byte := by
  have hp : Positive (List.replicate (bs.length + 1) 1) := by
    intro n hn; rw [List.eq_of_mem_replicate hn]; omega
  rcases h _ hp with ⟨p, _, _, h1⟩ | ⟨rs, k, h1, h2⟩
  · simp at h1; omega
  · obtain ⟨h3, h4, _⟩ := calls_seen s hp
    rw [h4 (by rw [h1]; simp [List.replicate_succ]), h1, seen_append, seen_replicate, h2.seen] at h3
    simpa using h3

section
variable {c : Cfg} {ρ : Type} [LawfulReader ρ] [ZeroReader ρ]

/-- The two parts of the state of a chunked body are never present together. -/
def HttpChunkedBody.Exclusive (b : HttpChunkedBody c ρ) : Prop := b.chunk = none ∨ b.stream = none

theorem HttpChunkedBody.readImpl_exclusive (b : HttpChunkedBody c ρ) (n : Nat) (h : b.Exclusive) :
    (HttpChunkedBody.readImpl b n).2.Exclusive := by
  fun_induction HttpChunkedBody.readImpl b n with
  | case1 b chunk hc e chunk' hr => exact .inl rfl
  | case2 b chunk hc chunk' hr e s he => exact .inl rfl
  | case3 b chunk hc chunk' hr bs s he ih => exact ih (.inl rfl)
  | case4 b chunk hc x xs chunk' hr => rcases h with h | h
                                       · rw [hc] at h; simp at h
                                       · exact .inr h
  | case5 b hc stream hs e s hn => exact .inr rfl
  | case6 b hc stream hs chunk s hn ih => exact ih (.inr rfl)
  | case7 b hc stream hs s hn => exact .inr rfl
  | case8 b hc hs => exact h

theorem HttpChunkedBody.calls_exclusive (b : HttpChunkedBody c ρ) (sizes : List Nat) (h : b.Exclusive) :
    (calls b sizes).2.Exclusive := by
  induction sizes generalizing b with
  | nil => exact h
  | cons n ns ih =>
    rw [calls]
    exact ih _ (HttpChunkedBody.readImpl_exclusive b n h)

theorem Take.read_zero_ok {t t' : Take ρ} {bs : Bytes} (h : read t 0 = (.ok bs, t')) : bs = [] := by
  rw [Take.read_def] at h
  unfold Take.readImpl at h
  by_cases h0 : t.limit = 0
  · rw [if_pos h0] at h; simp at h; exact h.1
  · rw [if_neg h0, Nat.zero_min] at h
    rcases ZeroReader.read_zero t.inner with ⟨h1, _⟩ | ⟨e, _, _, h1, _⟩
    · rcases hr : read t.inner 0 with ⟨r, i⟩
      rw [hr] at h h1
      simp only at h1
      subst h1
      simp at h
      exact h.1
    · rcases hr : read t.inner 0 with ⟨r, i⟩
      rw [hr] at h h1
      simp only at h1
      subst h1
      simp at h

/-- A read with an empty buffer finishes a chunked body, whatever was left in it. -/
theorem HttpChunkedBody.readImpl_zero (b : HttpChunkedBody c ρ) (hx : b.Exclusive) :
    (HttpChunkedBody.readImpl b 0).2.chunk = none ∧ (HttpChunkedBody.readImpl b 0).2.stream = none := by
  generalize hn : (0 : Nat) = n
  fun_induction HttpChunkedBody.readImpl b n with
  | case1 b chunk hc e chunk' hr =>
    refine ⟨rfl, ?_⟩
    rcases hx with h | h
    · rw [hc] at h; simp at h
    · exact h
  | case2 b chunk hc chunk' hr e s he =>
    refine ⟨rfl, ?_⟩
    rcases hx with h | h
    · rw [hc] at h; simp at h
    · exact h
  | case3 b chunk hc chunk' hr bs s he ih => exact ih (.inl rfl)
  | case4 b chunk hc x xs chunk' hr =>
    subst hn
    exact absurd (Take.read_zero_ok hr) (by simp)
  | case5 b hc stream hs e s hn' => exact ⟨hc, rfl⟩
  | case6 b hc stream hs chunk s hn' ih => exact ih (.inr rfl)
  | case7 b hc stream hs s hn' => exact ⟨hc, rfl⟩
  | case8 b hc hs => exact ⟨hc, hs⟩

theorem HttpChunkedBody.trace_finished (b : HttpChunkedBody c ρ) (h1 : b.chunk = none) (h2 : b.stream = none) :
    trace b = [] := by
  show b.traceImpl = []
  unfold HttpChunkedBody.traceImpl
  rw [h1, h2]

/-- With nothing left in the body, a read with an empty buffer reports the end. -/
theorem HttpChunkedBody.readImpl_zero_ok (b : HttpChunkedBody c ρ) (h : b.traceImpl = []) (hx : b.Exclusive) :
    (HttpChunkedBody.readImpl b 0).1 = .ok [] := by
  generalize hn : (0 : Nat) = n
  fun_induction HttpChunkedBody.readImpl b n with
  | case1 b chunk hc e chunk' hr =>
    exfalso
    subst hn
    have hs : b.stream = none := by
      rcases hx with h | h
      · rw [hc] at h; simp at h
      · exact h
    unfold HttpChunkedBody.traceImpl at h
    rw [hc, hs] at h
    dsimp only at h
    rw [Take.read_def] at hr; unfold Take.readImpl at hr
    by_cases h0 : chunk.limit = 0
    · rw [if_pos h0] at hr; simp at hr
    · obtain ⟨k, hk⟩ : ∃ k, chunk.limit = k + 1 := ⟨chunk.limit - 1, by omega⟩
      rw [hk] at h
      cases ht : trace chunk.inner with
      | nil => rw [ht, chunkT] at h; simp at h
      | cons ev t => cases ev <;> · rw [ht, chunkT] at h; simp at h
  | case2 b chunk hc chunk' hr e s he =>
    exfalso
    subst hn
    unfold HttpChunkedBody.traceImpl at h
    rw [hc] at h
    dsimp only at h
    have h0 : chunk.limit = 0 := by
      cases hk : chunk.limit with
      | zero => rfl
      | succ k =>
        rw [hk] at h
        cases ht : trace chunk.inner with
        | nil => rw [ht, chunkT] at h; simp at h
        | cons ev t => cases ev <;> · rw [ht, chunkT] at h; simp at h
    rw [Take.read_def] at hr; unfold Take.readImpl at hr
    rw [if_pos h0] at hr
    simp only [Prod.mk.injEq, true_and] at hr
    subst hr
    rw [h0, chunkT_end, ← readExact_trace, he] at h
    simp at h
  | case3 b chunk hc chunk' hr bs s he ih =>
    refine ih ?_ (.inl rfl)
    subst hn
    unfold HttpChunkedBody.traceImpl at h ⊢
    rw [hc] at h
    dsimp only at h ⊢
    have h0 : chunk.limit = 0 := by
      cases hk : chunk.limit with
      | zero => rfl
      | succ k =>
        rw [hk] at h
        cases ht : trace chunk.inner with
        | nil => rw [ht, chunkT] at h; simp at h
        | cons ev t => cases ev <;> · rw [ht, chunkT] at h; simp at h
    rw [Take.read_def] at hr; unfold Take.readImpl at hr
    rw [if_pos h0] at hr
    simp only [Prod.mk.injEq, true_and] at hr
    subst hr
    rw [h0, chunkT_end, ← readExact_trace, he] at h
    exact h
  | case4 b chunk hc x xs chunk' hr =>
    subst hn
    exact absurd (Take.read_zero_ok hr) (by simp)
  | case5 b hc stream hs e s hn' =>
    exfalso
    unfold HttpChunkedBody.traceImpl at h
    rw [hc, hs] at h
    dsimp only at h
    rw [HttpBodyChunk.new_trace, hn'] at h
    simp at h
  | case6 b hc stream hs chunk s hn' ih =>
    refine ih ?_ (.inr rfl)
    unfold HttpChunkedBody.traceImpl at h ⊢
    rw [hc, hs] at h
    dsimp only at h ⊢
    rw [HttpBodyChunk.new_trace, hn'] at h
    exact h
  | case7 b hc stream hs s hn' => rfl
  | case8 b hc hs => rfl

end

/-- A chunk whose data is not followed by two bytes, after any number of complete chunks. -/
theorem chunkT_tail_missing {c : Cfg} {t t' : List Ev} {x : Bytes} {pre : List Chunk} {ch : Chunk}
    (hs : ∀ ch ∈ pre, ch.Sized) (hc : ch.Sized) (hx : x.length < 2)
    (ht : t = ((pre.map Chunk.bytes).flatten ++ ch.size ++ [13, 10] ++ ch.data ++ x).map .byte ++ t') (he : Ended c t') :
    chunkT c [] none t = (chunkedData pre ++ ch.data).map .byte ++ [.fault c.eofErr] := by
  have step : ∀ (ch : Chunk) (t : List Ev), ch.Sized →
      chunkT c [] none ((ch.size ++ [13, 10] ++ ch.data).map .byte ++ t) =
        ch.data.map .byte ++ chunkT c [] (some 0) t := by
    intro ch t ⟨g1, g2, g3, g4⟩
    have hr := unsignedText_rawLine g1
    have hd : Delivers c ((ch.size ++ [13, 10] ++ ch.data).map .byte ++ t) (ch.size ++ [13, 10]) (ch.data.map .byte ++ t) := by
      have := delivers_map c (ch.size ++ [13, 10]) (ch.data.map .byte ++ t)
      simpa using this
    rw [chunkT_size]
    unfold expectNextT
    rw [innerNextT_line hr.2.1 hd, lineOutcome, if_neg (by simp [hr.1]), if_pos ((validUtf8_iff _).2 hr.2.2)]
    dsimp only
    rw [parseSize g1 g3]
    dsimp only
    rw [if_neg (by have := List.length_pos_iff.2 g2; omega), chunkT_bytes (by omega), Nat.sub_self]
  induction pre generalizing t with
  | nil =>
    have : t = (ch.size ++ [13, 10] ++ ch.data).map .byte ++ (x.map .byte ++ t') := by rw [ht]; simp
    rw [this, step ch _ hc, chunkT_end, readExactT_short (delivers_map c x t') hx he]
    simp [chunkedData]
  | cons p pre ih =>
    have : t = (p.size ++ [13, 10] ++ p.data).map .byte ++ (p.tail.map .byte ++
        (((pre.map Chunk.bytes).flatten ++ ch.size ++ [13, 10] ++ ch.data ++ x).map .byte ++ t')) := by
      rw [ht]; simp [Chunk.bytes]
    have hp := hs p (by simp)
    rw [this, step p _ hp, chunkT_end, ← hp.2.2.2, readExactT_delivers (delivers_map c p.tail _)]
    dsimp only
    rw [ih (fun q hq => hs q (by simp [hq])) rfl]
    simp [chunkedData]

end HttpIo
