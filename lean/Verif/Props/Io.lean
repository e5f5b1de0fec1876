import Verif.Spec.Io
import Verif.Model.WriterLaws
import Verif.Lemmas.ZeroRead
import Verif.Lemmas.Client

/-! C33-C36: the I/O layer. -/

namespace HttpIo
open Spec

/-! ### C34 -/

/-- Every stream delivers `n` bytes, or ends before, or fails before. -/
theorem delivers_cases (c : Cfg) (n : Nat) (t : List Ev) :
    ∃ bs t', Delivers c t bs t' ∧ (bs.length = n ∨ bs.length < n ∧ (Ended c t' ∨ ∃ e t'', Fails c t' e t'')) := by
  induction t generalizing n with
  | nil =>
    refine ⟨[], [], .nil _, ?_⟩
    cases n with
    | zero => exact .inl rfl
    | succ n => exact .inr ⟨by simp, .inl (by simp [Ended])⟩
  | cons ev t ih =>
    cases n with
    | zero => exact ⟨[], _, .nil _, .inl rfl⟩
    | succ n =>
      cases ev with
      | byte b =>
        obtain ⟨bs, t', h1, h2⟩ := ih n
        exact ⟨b :: bs, t', .byte b h1, by simpa using h2⟩
      | fault e =>
        by_cases hr : Retried c e
        · obtain ⟨bs, t', h1, h2⟩ := ih (n + 1)
          cases bs with
          | nil =>
            cases h1
            refine ⟨[], .fault e :: t, .nil _, ?_⟩
            right
            rcases h2 with h2 | ⟨_, h2 | ⟨e', t'', h2, pre, h3, h4⟩⟩
            · simp at h2
            · refine ⟨by simp, .inl ?_⟩
              intro ev hev
              rcases List.mem_cons.1 hev with rfl | hev
              · exact ⟨e, rfl, hr⟩
              · exact h2 ev hev
            · refine ⟨by simp, .inr ⟨e', t'', h2, .fault e :: pre, by rw [h3]; rfl, ?_⟩⟩
              intro ev hev
              rcases List.mem_cons.1 hev with rfl | hev
              · exact ⟨e, rfl, hr⟩
              · exact h4 ev hev
          | cons b bs => exact ⟨b :: bs, t', .retry hr h1, h2⟩
        · exact ⟨[], _, .nil _, .inr ⟨by simp, .inr ⟨e, t, hr, [], rfl, by simp [Ended]⟩⟩⟩

/-- `read_exact(n)` succeeds with `bs`, leaving `t'` pending, exactly if the stream delivers the `n` bytes `bs` and has
`t'` pending after them. -/
theorem C34_read_exact {σ : Type} [LawfulReader σ] (c : Cfg) (s : σ) (n : Nat) (bs : Bytes) (t' : List Ev) :
    (∃ s', readExact c s n = (.ok bs, s') ∧ trace s' = t') ↔ Delivers c (trace s) bs t' ∧ bs.length = n := by
  constructor
  · rintro ⟨s', h1, h2⟩
    obtain ⟨bs', t'', h3, h4⟩ := delivers_cases c n (trace s)
    rcases h4 with h4 | ⟨h4, h5 | ⟨e, t3, h5⟩⟩
    · obtain ⟨s'', h6, h7⟩ := readExact_eq (s := s) (h4 ▸ readExactT_delivers h3)
      rw [h6] at h1
      simp only [Prod.mk.injEq, Except.ok.injEq] at h1
      obtain ⟨rfl, rfl⟩ := h1
      rw [← h2, h7]
      exact ⟨h3, h4⟩
    · obtain ⟨s'', h6, _⟩ := readExact_eq (readExactT_short h3 h4 h5)
      rw [h6] at h1; simp at h1
    · obtain ⟨s'', h6, _⟩ := readExact_eq (readExactT_fails h3 h4 h5)
      rw [h6] at h1; simp at h1
  · rintro ⟨h1, rfl⟩
    exact readExact_eq (readExactT_delivers h1)

/-- It fails with the end-of-file error if the stream ends early, with the transport's error if that comes first. -/
theorem C34_read_exact_fails {σ : Type} [LawfulReader σ] (c : Cfg) (s : σ) (n : Nat) (bs : Bytes) (t' : List Ev)
    (hd : Delivers c (trace s) bs t') (hlt : bs.length < n) :
    (Ended c t' → (readExact c s n).1 = .error (if c.std then .io .unexpectedEof else .unexpectedEof)) ∧
    ∀ e t'', Fails c t' e t'' → (readExact c s n).1 = .error e ∧ trace (readExact c s n).2 = t'' := by
  constructor
  · intro he
    obtain ⟨s'', h6, _⟩ := readExact_eq (readExactT_short hd hlt he)
    rw [h6]; rfl
  · intro e t'' he
    obtain ⟨s'', h6, h7⟩ := readExact_eq (readExactT_fails hd hlt he)
    rw [h6]; exact ⟨rfl, h7⟩

/-- The override for slices returns the same; it consumes nothing when it fails. -/
theorem C34_slice (c : Cfg) (bs : Bytes) (n : Nat) :
    (SliceReader.readExact c ⟨bs⟩ n).1 = (readExact c (SliceReader.mk bs) n).1 ∧
    (SliceReader.readExact c ⟨bs⟩ n).2 = (if n ≤ bs.length then ⟨bs.drop n⟩ else ⟨bs⟩) := by
  unfold SliceReader.readExact
  have hd : ∀ k, Delivers c (trace (SliceReader.mk bs)) (bs.take k) ((bs.drop k).map .byte) := by
    intro k
    have := delivers_map c (bs.take k) ((bs.drop k).map .byte)
    rwa [← List.map_append, List.take_append_drop] at this
  by_cases h : n > bs.length
  · rw [if_pos h, if_neg (by omega)]
    refine ⟨?_, rfl⟩
    have := (C34_read_exact_fails c (SliceReader.mk bs) n _ _ (hd bs.length) (by simpa using h)).1 (by simp [Ended])
    exact this.symm
  · rw [if_neg h, if_pos (by omega)]
    refine ⟨?_, rfl⟩
    obtain ⟨s', h1, _⟩ := (C34_read_exact c (SliceReader.mk bs) n _ _).2 ⟨hd n, by simp; omega⟩
    rw [h1]

/-- `write_all` (the provided method) over any writer: on success every byte was accepted, in order; on failure a
prefix was. -/
theorem C34_write_all {σ : Type} [LawfulWriter σ] (c : Cfg) (s : σ) (buf : Bytes) :
    ∃ p, p <+: buf ∧ sent (defaultWriteAll c s buf).2 = sent s ++ p ∧
      ((defaultWriteAll c s buf).1 = .ok () → p = buf) :=
  (defaultWriteAll_sent LawfulWriter.contract (r := (defaultWriteAll c s buf).1) rfl).1

/-- Conversely it succeeds on every transport that accepts at least one byte per call, or only reports interruptions
(which `std` repeats). -/
theorem C34_write_all_succeeds (c : Cfg) (s : Sink) (buf : Bytes)
    (hp : ∀ a ∈ s.plan, (∃ k, a = .accept (k + 1)) ∨ ∃ e, a = .fault e ∧ Retried c e) :
    (defaultWriteAll c s buf).1 = .ok () ∧ (defaultWriteAll c s buf).2.got = s.got ++ buf := by
  have main : (writeLoop c s buf).1 = .ok () := by
    fun_induction writeLoop c s buf with
    | case1 => rfl
    | case2 s buf hb s1 hw =>
      exfalso
      replace hw : Sink.writeImpl s buf = (.ok 0, s1) := hw
      unfold Sink.writeImpl at hw
      have := List.length_pos_iff.2 hb
      split at hw
      · simp only [Prod.mk.injEq, Except.ok.injEq] at hw; omega
      · rename_i n t ht
        simp only [Prod.mk.injEq, Except.ok.injEq] at hw
        rcases hp (.accept n) (by rw [ht]; simp) with ⟨k, h⟩ | ⟨e, h, _⟩
        · simp only [WPlan.accept.injEq] at h; omega
        · simp at h
      · simp at hw
    | case3 s buf hb k s1 hw ih =>
      apply ih
      replace hw : Sink.writeImpl s buf = (.ok (k + 1), s1) := hw
      unfold Sink.writeImpl at hw
      split at hw
      · rename_i ht
        simp only [Prod.mk.injEq, Except.ok.injEq] at hw
        rw [← hw.2]; simp only [ht]; simp
      · rename_i n t ht
        simp only [Prod.mk.injEq, Except.ok.injEq] at hw
        rw [← hw.2]
        intro a ha
        exact hp a (by rw [ht]; simp only at ha; simp [ha])
      · simp at hw
    | case4 s buf hb e s1 hw hr ih =>
      apply ih
      replace hw : Sink.writeImpl s buf = (.error e, s1) := hw
      unfold Sink.writeImpl at hw
      split at hw
      · simp at hw
      · simp at hw
      · rename_i e' t ht
        simp only [Prod.mk.injEq] at hw
        rw [← hw.2]
        intro a ha
        exact hp a (by rw [ht]; simp only at ha; simp [ha])
    | case5 s buf hb e s1 hw hr =>
      exfalso
      replace hw : Sink.writeImpl s buf = (.error e, s1) := hw
      unfold Sink.writeImpl at hw
      split at hw
      · simp at hw
      · simp at hw
      · rename_i e' t ht
        simp only [Prod.mk.injEq, Except.error.injEq] at hw
        rcases hp (.fault e') (by rw [ht]; simp) with ⟨k, h⟩ | ⟨e'', h, h2⟩
        · simp at h
        · simp only [WPlan.fault.injEq] at h
          rw [← h, hw.1] at h2
          exact hr (retries_iff.2 h2)
  have hok : (defaultWriteAll c s buf).1 = .ok () := main
  refine ⟨hok, ?_⟩
  obtain ⟨p, _, h2, h3⟩ := C34_write_all c s buf
  rw [h3 hok] at h2
  exact h2

/-- Witnesses for C34. -/
example : (readExact ⟨true⟩ (Wire.mk [.data b!"ab", .fault (.io .interrupted), .data b!"cde"]) 4).1 = .ok b!"abcd" ∧
    (readExact ⟨false⟩ (Wire.mk [.data b!"ab", .fault (.io .interrupted), .data b!"cde"]) 4).1 = .error (.io .interrupted) ∧
    (readExact ⟨true⟩ (Wire.mk [.data b!"ab"]) 4).1 = .error (.io .unexpectedEof) := by decide +kernel

example : (defaultWriteAll ⟨true⟩ (Sink.mk [] 0 [.accept 1, .fault (.io .interrupted), .accept 2]) b!"hello").2.got = b!"hello" ∧
    (∀ a ∈ [WPlan.accept 1, .fault (.io .interrupted), .accept 2], (∃ k, a = .accept (k + 1)) ∨ ∃ e, a = .fault e ∧ Retried ⟨true⟩ e) := by
  refine ⟨by decide +kernel, ?_⟩
  intro a ha
  simp only [List.mem_cons, List.not_mem_nil, or_false] at ha
  rcases ha with rfl | rfl | rfl
  · exact .inl ⟨0, rfl⟩
  · exact .inr ⟨_, rfl, rfl, rfl⟩
  · exact .inl ⟨1, rfl⟩

/-! ### C33 -/

/-- `copy` succeeds only after the whole contents `bs` of the reader; the writer received exactly `bs`, in order, and
the count is its length. -/
theorem C33_copy_ok {ρ σ : Type} [LawfulReader ρ] [LawfulWriter σ] (c : Cfg) (r r' : ρ) (w w' : σ) (n k : Nat)
    (h : copy c r w n = (.ok k, r', w')) :
    ∃ bs t', Delivers c (trace r) bs t' ∧ Ended c t' ∧ sent w' = sent w ++ bs ∧ k = n + bs.length ∧ trace r' = [] := by
  fun_induction copy c r w n with
  | case1 r w n r1 hr =>
    simp only [Prod.mk.injEq, Except.ok.injEq] at h
    obtain ⟨rfl, rfl, rfl⟩ := h
    have := LawfulReader.read_step r _ (copySize_pos c r)
    rw [hr] at this
    rcases this.ok_inv with ⟨_, h1, h2⟩ | ⟨h1, _⟩
    · exact ⟨[], trace r, .nil _, by rw [h1]; simp [Ended], by simp, by simp, h2⟩
    · exact absurd rfl h1
  | case2 r w n b bs r1 hr w1 hw ih =>
    obtain ⟨bs', t', h1, h2, h3, h4, h5⟩ := ih h
    have ht := trace_of_data (copySize_pos _ _) (by simp) hr
    refine ⟨(b :: bs) ++ bs', t', ?_, h2, ?_, ?_, h5⟩
    · rw [ht]; exact (delivers_map c (b :: bs) _).append h1
    · rw [h3, LawfulWriter.writeAll_ok_sent hw, List.append_assoc]
    · rw [h4, List.length_append]; omega
  | case3 r w n b bs r1 hr e w1 hw => simp at h
  | case4 r w n e r1 hr hre ih =>
    obtain ⟨bs', t', h1, h2, h3, h4, h5⟩ := ih h
    have := LawfulReader.read_step r _ (copySize_pos c r)
    rw [hr] at this
    have ht := this.error_inv
    have hret := retries_iff.1 hre
    cases bs' with
    | nil =>
      have h1 : t' = trace r1 := by
        generalize trace r1 = u at h1
        cases h1; rfl
      rw [h1] at h2
      refine ⟨[], trace r, .nil _, ?_, h3, h4, h5⟩
      rw [ht]
      intro ev hev
      rcases List.mem_cons.1 hev with rfl | hev
      · exact ⟨e, rfl, hret⟩
      · exact h2 ev hev
    | cons b bs' => exact ⟨b :: bs', t', by rw [ht]; exact .retry hret h1, h2, h3, h4, h5⟩
  | case5 r w n e r1 hr hre => simp at h

/-- When it fails, the writer has received a prefix of the reader's contents. -/
theorem C33_copy_err {ρ σ : Type} [LawfulReader ρ] [LawfulWriter σ] (c : Cfg) (r r' : ρ) (w w' : σ) (n : Nat) (e : Err)
    (h : copy c r w n = (.error e, r', w')) :
    ∃ p bs t', Delivers c (trace r) bs t' ∧ p <+: bs ∧ sent w' = sent w ++ p := by
  fun_induction copy c r w n with
  | case1 r w n r1 hr => simp at h
  | case2 r w n b bs r1 hr w1 hw ih =>
    obtain ⟨p, bs', t', h1, h2, h3⟩ := ih h
    have ht := trace_of_data (copySize_pos _ _) (by simp) hr
    refine ⟨(b :: bs) ++ p, (b :: bs) ++ bs', t', ?_, (List.prefix_append_right_inj _).2 h2, ?_⟩
    · rw [ht]; exact (delivers_map c (b :: bs) _).append h1
    · rw [h3, LawfulWriter.writeAll_ok_sent hw, List.append_assoc]
  | case3 r w n b bs r1 hr e1 w1 hw =>
    simp only [Prod.mk.injEq, Except.error.injEq] at h
    obtain ⟨rfl, rfl, rfl⟩ := h
    have ht := trace_of_data (copySize_pos _ _) (by simp) hr
    obtain ⟨p, hp, hs⟩ := LawfulWriter.writeAll_err_sent hw
    exact ⟨p, b :: bs, trace r1, by rw [ht]; exact delivers_map c (b :: bs) _, hp, hs⟩
  | case4 r w n e1 r1 hr hre ih =>
    obtain ⟨p, bs', t', h1, h2, h3⟩ := ih h
    have := LawfulReader.read_step r _ (copySize_pos c r)
    rw [hr] at this
    have ht := this.error_inv
    have hret := retries_iff.1 hre
    cases bs' with
    | nil => exact ⟨p, [], trace r, .nil _, h2, h3⟩
    | cons b bs' => exact ⟨p, b :: bs', t', by rw [ht]; exact .retry hret h1, h2, h3⟩
  | case5 r w n e1 r1 hr hre =>
    simp only [Prod.mk.injEq, Except.error.injEq] at h
    obtain ⟨rfl, rfl, rfl⟩ := h
    exact ⟨[], [], _, .nil _, List.nil_prefix, by simp⟩

/-- And why: either the reader failed, with this error, and everything it delivered before was written; or writing a piece of
its contents failed, with this error. -/
theorem C33_copy_cause {ρ σ : Type} [LawfulReader ρ] [LawfulWriter σ] (c : Cfg) (r r' : ρ) (w w' : σ) (n : Nat) (e : Err)
    (h : copy c r w n = (.error e, r', w')) :
    (∃ bs t', Delivers c (trace r) bs t' ∧ Fails c t' e (trace r') ∧ sent w' = sent w ++ bs) ∨
    ∃ bs piece w0, piece ≠ [] ∧ Delivers c (trace r) (bs ++ piece) (trace r') ∧ sent w0 = sent w ++ bs ∧
      writeAll c w0 piece = (.error e, w') := by
  fun_induction copy c r w n with
  | case1 r w n r1 hr => simp at h
  | case2 r w n b bs r1 hr w1 hw ih =>
    have ht := trace_of_data (copySize_pos _ _) (by simp) hr
    rcases ih h with ⟨bs', t', h1, h2, h3⟩ | ⟨bs', piece, w0, h0, h1, h2, h3⟩
    · refine .inl ⟨(b :: bs) ++ bs', t', ?_, h2, ?_⟩
      · rw [ht]; exact (delivers_map c (b :: bs) _).append h1
      · rw [h3, LawfulWriter.writeAll_ok_sent hw, List.append_assoc]
    · refine .inr ⟨(b :: bs) ++ bs', piece, w0, h0, ?_, ?_, h3⟩
      · rw [ht, List.append_assoc]; exact (delivers_map c (b :: bs) _).append h1
      · rw [h2, LawfulWriter.writeAll_ok_sent hw, List.append_assoc]
  | case3 r w n b bs r1 hr e1 w1 hw =>
    simp only [Prod.mk.injEq, Except.error.injEq] at h
    obtain ⟨rfl, rfl, rfl⟩ := h
    have ht := trace_of_data (copySize_pos _ _) (by simp) hr
    exact .inr ⟨[], b :: bs, w, by simp, by rw [ht]; exact delivers_map c (b :: bs) _, by simp, hw⟩
  | case4 r w n e1 r1 hr hre ih =>
    have := LawfulReader.read_step r _ (copySize_pos c r)
    rw [hr] at this
    have ht := this.error_inv
    have hret := retries_iff.1 hre
    rcases ih h with ⟨bs', t', h1, ⟨h2, pre, h4, h5⟩, h3⟩ | ⟨bs', piece, w0, h0, h1, h2, h3⟩
    · cases hb : bs' with
      | nil =>
        rw [hb] at h1 h3
        have : t' = trace r1 := by
          generalize trace r1 = u at h1
          cases h1; rfl
        refine .inl ⟨[], trace r, .nil _, ⟨h2, .fault e1 :: pre, by rw [ht, ← this, h4]; rfl, ?_⟩, h3⟩
        intro ev hev
        rcases List.mem_cons.1 hev with rfl | hev
        · exact ⟨e1, rfl, hret⟩
        · exact h5 ev hev
      | cons b bs' =>
        rw [hb] at h1 h3
        exact .inl ⟨b :: bs', t', by rw [ht]; exact .retry hret h1, ⟨h2, pre, h4, h5⟩, h3⟩
    · refine .inr ⟨bs', piece, w0, h0, ?_, h2, h3⟩
      cases hb : bs' ++ piece with
      | nil => exact absurd (List.append_eq_nil_iff.1 hb).2 h0
      | cons b bs' => rw [hb] at h1; rw [ht]; exact .retry hret h1
  | case5 r w n e1 r1 hr hre =>
    simp only [Prod.mk.injEq, Except.error.injEq] at h
    obtain ⟨rfl, rfl, rfl⟩ := h
    have := LawfulReader.read_step r _ (copySize_pos c r)
    rw [hr] at this
    exact .inl ⟨[], _, .nil _, ⟨fun hc => hre (retries_iff.2 hc), [], this.error_inv, by simp [Ended]⟩, by simp⟩

/-- It does succeed when the reader delivers its contents and the writer, from the state `w` it is in, never fails. -/
theorem C33_copy_succeeds {ρ σ : Type} [LawfulReader ρ] [LawfulWriter σ] (c : Cfg) (r : ρ) (w : σ) (n : Nat) (bs : Bytes)
    (t' : List Ev) (hd : Delivers c (trace r) bs t') (he : Ended c t') (P : σ → Prop) (hP : P w)
    (hw : ∀ (w : σ) buf, P w → (writeAll c w buf).1 = .ok () ∧ P (writeAll c w buf).2) :
    (copy c r w n).1 = .ok (n + bs.length) ∧ sent (copy c r w n).2.2 = sent w ++ bs := by
  have hgood : ∀ t bs t', Delivers c t bs t' → Ended c t' → ∀ e t'', t = .fault e :: t'' → Retried c e := by
    intro t bs t' h1 h2 e t'' ht
    cases h1 with
    | nil =>
      obtain ⟨e', h3, h4⟩ := h2 (.fault e) (by rw [ht]; simp)
      simp only [Ev.fault.injEq] at h3
      rw [h3]; exact h4
    | byte => simp at ht
    | retry h3 => simp only [List.cons.injEq, Ev.fault.injEq] at ht; rw [← ht.1]; exact h3
  -- enough: it does not fail
  have main : ∃ k, (copy c r w n).1 = .ok k := by
    fun_induction copy c r w n generalizing bs t' with
    | case1 r w n r1 hr => exact ⟨n, rfl⟩
    | case2 r w n b bs1 r1 hr w1 hw1 ih =>
      have ht := trace_of_data (copySize_pos _ _) (by simp) hr
      rw [ht] at hd
      obtain ⟨bs', h1⟩ : ∃ bs', Delivers c (trace r1) bs' t' := by
        have hno : ∀ (x : Bytes) t bs, Delivers c (x.map .byte ++ t) bs t' → ∃ bs', Delivers c t bs' t' := by
          intro x
          induction x with
          | nil => intro t bs h; exact ⟨bs, h⟩
          | cons b x ih =>
            intro t bs h
            generalize hg : (b :: x).map Ev.byte ++ t = u at h
            cases h with
            | nil =>
              obtain ⟨e', h3, h4⟩ := he (.byte b) (by rw [← hg]; simp)
              simp at h3
            | byte b' h => simp only [List.map_cons, List.cons_append, List.cons.injEq] at hg
                           rw [← hg.2] at h
                           exact ih t _ h
            | retry _ _ => simp at hg
        exact hno _ _ _ hd
      have := (hw w (b :: bs1) hP).2
      rw [hw1] at this
      exact ih bs' t' h1 he this
    | case3 r w n b bs1 r1 hr e1 w1 hw1 =>
      have := (hw w (b :: bs1) hP).1
      rw [hw1] at this; simp at this
    | case4 r w n e1 r1 hr hre ih =>
      have := LawfulReader.read_step r _ (copySize_pos c r)
      rw [hr] at this
      have ht := this.error_inv
      rw [ht] at hd
      generalize hg : Ev.fault e1 :: trace r1 = u at hd
      cases hd with
      | nil =>
        refine ih [] (trace r1) (.nil _) ?_ hP
        intro ev hev
        exact he ev (by rw [← hg]; simp [hev])
      | byte => simp at hg
      | retry h3 h4 =>
        simp only [List.cons.injEq] at hg
        rw [← hg.2] at h4
        exact ih _ t' h4 he hP
    | case5 r w n e1 r1 hr hre =>
      exfalso
      have := LawfulReader.read_step r _ (copySize_pos c r)
      rw [hr] at this
      exact hre (retries_iff.2 (hgood _ _ _ hd he e1 _ this.error_inv))
  obtain ⟨k, hk⟩ := main
  rcases hcp : copy c r w n with ⟨res, r', w'⟩
  rw [hcp] at hk
  simp only at hk
  subst hk
  obtain ⟨bs', t2, h1, h2, h3, h4, _⟩ := C33_copy_ok c r r' w w' n k hcp
  rw [hd.ended_unique he h1 h2]
  exact ⟨by rw [h4], h3⟩

/-- Witness: an interrupted read is repeated by `std`, reported by `src/io.rs`; the sink takes 2 bytes at a time. -/
example :
    let r := Wire.mk [.data b!"abc", .fault (.io .interrupted), .data b!"de"]
    let w := Sink.mk b!"_" 0 [.accept 2, .accept 2]
    (copy ⟨true⟩ r w 0).1 = .ok 5 ∧ (copy ⟨true⟩ r w 0).2.2.got = b!"_abcde" ∧
    (copy ⟨false⟩ r w 0).1 = .error (.io .interrupted) ∧ (copy ⟨false⟩ r w 0).2.2.got = b!"_abc" := by decide +kernel

/-- Witness: all the hypotheses of `C33_copy_succeeds` hold for a sink that takes what it gets in small portions. -/
example (c : Cfg) :
    let r := Wire.mk [.data b!"abc", .data b!"de"]
    let w := Sink.mk b!"_" 0 [.accept 2, .accept 1]
    (copy c r w 0).1 = .ok 5 ∧ sent (copy c r w 0).2.2 = b!"_abcde" :=
  C33_copy_succeeds c (Wire.mk [.data b!"abc", .data b!"de"]) (Sink.mk b!"_" 0 [.accept 2, .accept 1]) 0 b!"abcde" [] (.byte _ (.byte _ (.byte _ (.byte _ (.byte _ (.nil _)))))) (by intro ev h; cases h)
    (fun s : Sink => ∀ a ∈ s.plan, (∃ n, a = .accept (n + 1)) ∨ ∃ e, a = .fault e ∧ Retried c e)
    (by intro a ha; simp at ha; rcases ha with rfl | rfl; exact .inl ⟨1, rfl⟩; exact .inl ⟨0, rfl⟩)
    fun s buf hs => ⟨(sink_reliable c).writeAll_ok s buf hs, (sink_reliable c).writeAll_next s buf hs⟩

/-! ### C35 -/

/-- The leaf readers. -/
theorem C35_leaf (bs : Bytes) (pos : Nat) :
    Yields (SliceReader.mk bs) bs ∧ Yields (Cursor.new bs) bs ∧ Yields (Cursor.mk bs pos) (bs.drop pos) ∧
    Yields EmptyReader.mk [] :=
  ⟨yields_of_trace rfl, yields_of_trace rfl, yields_of_trace rfl, yields_of_trace rfl⟩

/-- `Take` delivers the first `N` bytes of the stream it wraps and takes no more from it, failures included. -/
theorem C35_take {σ : Type} [LawfulReader σ] (s : σ) (N : Nat) (sizes : List Nat) (hp : Positive sizes) :
    let out := calls (Take.mk s N) sizes
    trace s = seen out.1 ++ trace out.2.inner ∧ (received out.1).length + out.2.limit = N ∧
    (.ok [] ∈ out.1 → out.2.limit = 0 ∨ trace out.2.inner = []) ∧
    ∀ bs, Yields s bs → Yields (Take.mk s N) (bs.take N) := by
  obtain ⟨h1, h2, h3⟩ := Take.calls (Take.mk s N) hp
  refine ⟨h1, by dsimp only at h2 ⊢; omega, h3, fun bs hy => yields_of_trace ?_⟩
  show limitTrace N (trace s) = _
  rw [trace_of_yields hy]
  have : ∀ (N : Nat) (bs : Bytes), limitTrace N (bs.map .byte) = (bs.take N).map .byte := by
    intro N bs
    induction bs generalizing N with
    | nil => cases N <;> simp [limitTrace]
    | cons b bs ih => cases N <;> simp [limitTrace, ih]
  exact this N bs

/-- `BufReader` delivers the stream it wraps, failures included. What it has taken from that stream beyond what it
delivered is in its buffer; without `std` that is nothing. -/
theorem C35_bufReader {σ : Type} [LawfulReader σ] (c : Cfg) (s : σ) (sizes : List Nat) (hp : Positive sizes) :
    let out := calls (BufReader.new c s) sizes
    (∃ held : Bytes, trace s = seen out.1 ++ held.map .byte ++ trace out.2.inner ∧ (c.std = false → held = []) ∧
      (.ok [] ∈ out.1 → held = [] ∧ trace out.2.inner = [])) ∧
    ((trace s).length < sizes.length → seen out.1 = trace s) ∧
    ∀ bs, Yields s bs → Yields (BufReader.new c s) bs := by
  obtain ⟨h1, h2, h3⟩ := calls_seen (BufReader.new c s) hp
  rw [BufReader.trace_new] at h1
  dsimp only
  refine ⟨?_, fun hl => ?_, fun bs hy => yields_of_trace (by rw [BufReader.trace_new]; exact trace_of_yields hy)⟩
  · rw [BufReader.trace_eq] at h1 h2
    by_cases hstd : c.std = true
    · rw [if_pos hstd] at h1 h2
      refine ⟨(calls (BufReader.new c s) sizes).2.buf, by simpa using h1, by simp [hstd], fun he => ?_⟩
      simpa using h2 he
    · rw [if_neg hstd] at h1 h2
      exact ⟨[], by simpa using h1, fun _ => rfl, fun he => ⟨rfl, h2 he⟩⟩
  · have hnil : trace (calls (BufReader.new c s) sizes).2 = [] := by
      apply Classical.byContradiction
      intro hne
      have := h3 hne
      have hlen := congrArg List.length h1
      rw [List.length_append] at hlen
      omega
    rw [hnil, List.append_nil] at h1
    exact h1.symm

/-- Witness: buffering reads ahead; not buffering does not. -/
example :
    let s := Wire.mk [.data b!"abcdef", .data b!"gh"]
    (calls (BufReader.new ⟨true⟩ s) [2]).2.inner = Wire.mk [.data b!"gh"] ∧
    (calls (BufReader.new ⟨true⟩ s) [2]).2.buf = b!"cdef" ∧
    (calls (BufReader.new ⟨false⟩ s) [2]).2.inner = Wire.mk [.data b!"cdef", .data b!"gh"] ∧
    received (calls (BufReader.new ⟨true⟩ s) [2, 9, 9, 9]).1 = b!"abcdefgh" ∧
    received (calls (Take.mk s 7) [2, 9, 9, 9]).1 = b!"abcdefg" := by decide +kernel

/-! ### C36 -/

theorem attempt_sent {σ : Type} [LawfulWriter σ] (s : σ) (cs : List WCall) :
    sent (attempt s cs).2 = sent s ++ acceptedBytes cs (attempt s cs).1 ∧ wire s <+: wire (attempt s cs).2 := by
  induction cs generalizing s with
  | nil => simp [attempt, acceptedBytes]
  | cons cl cs ih =>
    cases cl with
    | write buf =>
      simp only [attempt]
      obtain ⟨h1, h2⟩ := ih (write s buf).2
      refine ⟨?_, List.IsPrefix.trans (LawfulWriter.write_wire s buf) h2⟩
      rcases hw : write s buf with ⟨e | k, s'⟩
      · rw [hw] at h1
        rw [h1, LawfulWriter.write_err_sent hw]; rfl
      · rw [hw] at h1
        rw [h1, LawfulWriter.write_ok_sent hw, List.append_assoc]; rfl
    | flush =>
      simp only [attempt, acceptedBytes]
      obtain ⟨h1, h2⟩ := ih (flush s).2
      rw [LawfulWriter.flush_sent] at h1
      exact ⟨h1, List.IsPrefix.trans (LawfulWriter.flush_wire s) h2⟩

/-- Through `BufWriter` (buffering or not), whatever calls are made and whichever of them fail: what the transport was
handed is a prefix of what the caller knows to be accepted, in order, and the difference is still in the buffer; after
a flush that succeeds all of it is on the wire, and after `into_inner` that succeeds all of it was handed over. -/
theorem C36_bufWriter {σ : Type} [LawfulWriter σ] (c : Cfg) (s : σ) (cs : List WCall) :
    let out := attempt (BufWriter.new c s) cs
    (∃ held : Bytes, sent out.2.inner ++ held = sent s ++ acceptedBytes cs out.1 ∧ (c.std = false → held = [])) ∧
    (∀ w', flush out.2 = (.ok (), w') → wire w'.inner = sent s ++ acceptedBytes cs out.1) ∧
    (∀ s', out.2.intoInner = .ok s' → sent s' = sent s ++ acceptedBytes cs out.1) ∧
    (∀ e w', out.2.intoInner = .error (e, w') →
      ∃ held : Bytes, sent w'.inner ++ held = sent s ++ acceptedBytes cs out.1) := by
  dsimp only
  obtain ⟨h1, h2⟩ := attempt_sent (BufWriter.new c s) cs
  rw [BufWriter.sent_new] at h1
  generalize attempt (BufWriter.new c s) cs = out at h1 h2
  refine ⟨?_, fun w' hf => ?_, fun s' hi => ?_, fun e w' hi => ?_⟩
  · rw [BufWriter.sent_eq] at h1
    by_cases hstd : c.std = true
    · rw [if_pos hstd] at h1
      exact ⟨_, h1, by simp [hstd]⟩
    · rw [if_neg hstd] at h1
      exact ⟨[], by simpa using h1, fun _ => rfl⟩
  · rw [← h1]
    have h3 := LawfulWriter.flush_ok_wire hf
    have h4 := LawfulWriter.flush_sent out.2
    rw [hf] at h4
    rw [← h4, ← h3]
    rfl
  · rw [(BufWriter.intoInner_ok hi).1, h1]
  · have h3 := (BufWriter.intoInner_err hi).1
    rw [h1] at h3
    rw [BufWriter.sent_eq] at h3
    by_cases hstd : c.std = true
    · rw [if_pos hstd] at h3
      exact ⟨_, h3⟩
    · rw [if_neg hstd] at h3
      exact ⟨[], by simpa using h3⟩

/-- Witness: two writes, a flush that fails half way (`a` is out), another write, `into_inner`. -/
example :
    let s := Sink.mk [] 0 [.accept 1, .fault (.io (.other 0))]
    let out := attempt (BufWriter.new ⟨true⟩ s) [.write b!"ab", .write b!"c", .flush, .write b!"d"]
    out.1.map Except.toOption = [some 2, some 1, none, some 1] ∧ out.2.inner.got = b!"a" ∧ out.2.buf = b!"bcd" ∧
    out.2.intoInner.toOption.map Sink.got = some b!"abcd" := by decide +kernel

end HttpIo
