import Verif.Model.Reader

/-!
Every reader of the I/O layer keeps the `Read` contract (`LawfulReader`), with its trace spelled out.
-/

namespace HttpIo

theorem ReadStep.length_le {t t' : List Ev} {n : Nat} {bs : Bytes}
    (h : ReadStep t n (.ok bs) t') : bs.length ≤ n := by
  cases h with
  | eof => simp
  | data _ _ _ _ h => exact h

theorem ReadStep.split {t t' : List Ev} {n : Nat} {bs : Bytes}
    (h : ReadStep t n (.ok bs) t') : t = bs.map .byte ++ t' := by
  cases h <;> simp

/-- Inversion for a successful step. -/
theorem ReadStep.ok_inv {t t' : List Ev} {n : Nat} {bs : Bytes} (h : ReadStep t n (.ok bs) t') :
    (bs = [] ∧ t = [] ∧ t' = []) ∨ (bs ≠ [] ∧ bs.length ≤ n ∧ t = bs.map .byte ++ t') := by
  cases h with
  | eof => exact .inl ⟨rfl, rfl, rfl⟩
  | data _ _ _ h1 h2 => exact .inr ⟨h1, h2, rfl⟩

theorem ReadStep.error_inv {t t' : List Ev} {n : Nat} {e : Err} (h : ReadStep t n (.error e) t') :
    t = .fault e :: t' := by
  cases h; rfl

/-! ### Take -/

theorem limitTrace_zero (t : List Ev) : limitTrace 0 t = [] := by
  unfold limitTrace; rfl

theorem limitTrace_nil (k : Nat) : limitTrace k [] = [] := by
  cases k <;> simp [limitTrace]

theorem limitTrace_fault (k : Nat) (e : Err) (t : List Ev) :
    limitTrace (k + 1) (.fault e :: t) = .fault e :: limitTrace (k + 1) t := rfl

theorem limitTrace_append (bs : Bytes) (k : Nat) (t : List Ev) (h : bs.length ≤ k) :
    limitTrace k (bs.map .byte ++ t) = bs.map .byte ++ limitTrace (k - bs.length) t := by
  induction bs generalizing k with
  | nil => simp
  | cons b bs ih =>
    cases k with
    | zero => simp at h
    | succ k => simp [limitTrace]; rw [ih k (by simpa using h)]

instance {σ : Type} [LawfulReader σ] : LawfulReader (Take σ) where
  trace t := limitTrace t.limit (trace t.inner)
  read_step s n hn := by
    rw [Take.read_def]
    unfold Take.readImpl
    by_cases hl : s.limit = 0
    · simp only [hl, if_true]
      rw [limitTrace_zero]; exact .eof n
    · simp only [hl, if_false]
      have hs := LawfulReader.read_step s.inner (min n s.limit) (by omega)
      rcases hr : read s.inner (min n s.limit) with ⟨res, i⟩
      rw [hr] at hs
      cases res with
      | error e =>
        have := hs.error_inv
        dsimp only at this ⊢
        rw [this]
        obtain ⟨k, hk⟩ : ∃ k, s.limit = k + 1 := ⟨s.limit - 1, by omega⟩
        rw [hk, limitTrace_fault]
        exact .fault _ _ _
      | ok bs =>
        dsimp only at hs ⊢
        rcases hs.ok_inv with ⟨h1, h2, h3⟩ | ⟨h1, h2, h3⟩
        · rw [h1, h2, h3, limitTrace_nil, limitTrace_nil]; exact .eof n
        · rw [h3, limitTrace_append _ _ _ (by omega)]
          exact .data _ _ _ h1 (by omega)

instance {σ : Type} [LawfulReader σ] [ZeroReader σ] : ZeroReader (Take σ) where
  read_zero s := by
    show ((Take.readImpl s 0).1 = _ ∧ _) ∨ _
    by_cases hl : s.limit = 0
    · left
      have : (Reader.read s 0 : Except Err Bytes × Take σ) = Take.readImpl s 0 := rfl
      rw [this]; unfold Take.readImpl; simp [hl]
    · have hz := ZeroReader.read_zero s.inner
      have : (Reader.read s 0 : Except Err Bytes × Take σ) = Take.readImpl s 0 := rfl
      rw [this]; unfold Take.readImpl
      simp only [hl, if_false, Nat.zero_min]
      rcases hr : read s.inner 0 with ⟨res, i⟩
      rw [hr] at hz
      rcases hz with ⟨h1, h2⟩ | ⟨e, t, h1, h2, h3⟩
      · left
        dsimp only at h1 h2
        subst h1
        refine ⟨rfl, ?_⟩
        show limitTrace _ _ = limitTrace _ _
        simp [h2]
      · right
        dsimp only at h2 h3
        subst h2
        refine ⟨e, limitTrace s.limit t, ?_, rfl, ?_⟩
        · show limitTrace _ _ = _
          obtain ⟨k, hk⟩ : ∃ k, s.limit = k + 1 := ⟨s.limit - 1, by omega⟩
          rw [hk, h1, limitTrace_fault]
        · show limitTrace _ _ = _
          simp [h3]

/-! ### BufReader -/

/-- The pending events of a buffered reader: the buffer, then the inner stream. -/
def BufReader.traceImpl {c : Cfg} {σ : Type} [LawfulReader σ] (r : BufReader c σ) : List Ev :=
  if c.std then r.buf.map .byte ++ trace r.inner else trace r.inner

theorem bufCap_pos : 0 < bufCap := by decide

instance {c : Cfg} {σ : Type} [LawfulReader σ] : LawfulReader (BufReader c σ) where
  trace := BufReader.traceImpl
  read_step s n hn := by
    show ReadStep _ n (BufReader.readImpl s n).1 (BufReader.traceImpl (BufReader.readImpl s n).2)
    unfold BufReader.readImpl BufReader.traceImpl
    cases hc : c.std with
    | false => simpa using LawfulReader.read_step s.inner n hn
    | true =>
      simp only [if_true]
      cases hb : s.buf with
      | nil =>
        simp only [List.isEmpty_nil, if_true, List.map_nil, List.nil_append]
        by_cases hbig : n ≥ bufCap
        · simp only [hbig, if_true]
          simpa using LawfulReader.read_step s.inner n hn
        · simp only [hbig, if_false]
          have hs := LawfulReader.read_step s.inner bufCap bufCap_pos
          rcases hr : read s.inner bufCap with ⟨res, i⟩
          rw [hr] at hs
          cases res with
          | error e => dsimp only at hs ⊢; rw [hs.error_inv]; exact .fault _ _ _
          | ok bs =>
            dsimp only at hs ⊢
            rcases hs.ok_inv with ⟨h1, h2, h3⟩ | ⟨h1, h2, h3⟩
            · rw [h1, h2, h3]; simpa using ReadStep.eof n
            · rw [h3]
              have hsplit : bs.map Ev.byte ++ trace i =
                  (bs.take n).map Ev.byte ++ ((bs.drop n).map Ev.byte ++ trace i) := by
                rw [← List.append_assoc, ← List.map_append, List.take_append_drop]
              rw [hsplit]
              refine .data _ _ _ ?_ (by simp; omega)
              cases bs with
              | nil => exact absurd rfl h1
              | cons b bs => obtain ⟨k, rfl⟩ : ∃ k, n = k + 1 := ⟨n - 1, by omega⟩
                             simp
      | cons b bs =>
        simp only [List.isEmpty_cons, Bool.false_eq_true, if_false]
        have hsplit : (b :: bs).map Ev.byte ++ trace s.inner =
            ((b :: bs).take n).map Ev.byte ++ (((b :: bs).drop n).map Ev.byte ++ trace s.inner) := by
          rw [← List.append_assoc, ← List.map_append, List.take_append_drop]
        rw [hsplit]
        refine .data _ _ _ ?_ (by simp; omega)
        obtain ⟨k, rfl⟩ : ∃ k, n = k + 1 := ⟨n - 1, by omega⟩
        simp

theorem BufReader.trace_eq {c : Cfg} {σ : Type} [LawfulReader σ] (r : BufReader c σ) :
    trace r = if c.std then r.buf.map .byte ++ trace r.inner else trace r.inner := rfl

@[simp] theorem BufReader.trace_new {c : Cfg} {σ : Type} [LawfulReader σ] (s : σ) :
    trace (BufReader.new c s) = trace s := by
  rw [BufReader.trace_eq]; unfold BufReader.new; simp

instance {c : Cfg} {σ : Type} [LawfulReader σ] [ZeroReader σ] : ZeroReader (BufReader c σ) where
  read_zero s := by
    have hdef : (Reader.read s 0 : Except Err Bytes × BufReader c σ) = BufReader.readImpl s 0 := rfl
    simp only [hdef]
    unfold BufReader.readImpl
    have hz := ZeroReader.read_zero s.inner
    simp only [BufReader.trace_eq]
    cases hc : c.std with
    | false => simpa using hz
    | true =>
      simp only [if_true]
      cases hb : s.buf with
      | nil =>
        have hbig : ¬ (0 ≥ bufCap) := by have := bufCap_pos; omega
        simp only [List.isEmpty_nil, if_true, List.map_nil, List.nil_append, hbig, if_false]
        have hs := LawfulReader.read_step s.inner bufCap bufCap_pos
        rcases hr : read s.inner bufCap with ⟨res, i⟩
        rw [hr] at hs
        cases res with
        | error e =>
          right; dsimp only at hs ⊢
          exact ⟨e, trace i, hs.error_inv, rfl, by simp⟩
        | ok bs =>
          left; dsimp only at hs ⊢
          exact ⟨by simp, by rw [hs.split]; simp⟩
      | cons b bs => left; simp

/-! ### Leaves -/

instance : LawfulReader SliceReader where
  trace r := r.bytes.map .byte
  read_step s n hn := by
    rw [SliceReader.read_def]
    unfold SliceReader.readImpl
    cases hb : s.bytes with
    | nil => simpa using ReadStep.eof n
    | cons b bs =>
      dsimp only
      have hsplit : (b :: bs).map Ev.byte =
          ((b :: bs).take (min n (b :: bs).length)).map Ev.byte ++
            ((b :: bs).drop (min n (b :: bs).length)).map Ev.byte := by
        rw [← List.map_append, List.take_append_drop]
      rw [hsplit]
      refine .data _ _ _ ?_ (by simp; omega)
      have : 0 < min n (b :: bs).length := by simp; omega
      obtain ⟨k, hk⟩ : ∃ k, min n (b :: bs).length = k + 1 := ⟨min n (b :: bs).length - 1, by omega⟩
      rw [hk]; simp

instance : ZeroReader SliceReader where
  read_zero s := by
    left
    show (SliceReader.readImpl s 0).1 = _ ∧ (SliceReader.readImpl s 0).2.bytes.map Ev.byte = s.bytes.map Ev.byte
    simp [SliceReader.readImpl]

instance : LawfulReader EmptyReader where
  trace _ := []
  read_step _ n _ := .eof n

instance : ZeroReader EmptyReader where
  read_zero _ := .inl ⟨rfl, rfl⟩

theorem Cursor.fillBuf_eq (r : Cursor) : r.fillBuf = r.inner.drop r.pos := by
  unfold Cursor.fillBuf
  rcases Nat.le_total r.pos r.inner.length with h | h
  · rw [Nat.min_eq_left h]
  · rw [Nat.min_eq_right h, List.drop_of_length_le h]; simp

theorem Cursor.read_eq (r : Cursor) (n : Nat) :
    read r n = (.ok (r.fillBuf.take n), { r with pos := r.pos + (r.fillBuf.take n).length }) := by
  show Cursor.readImpl r n = _
  unfold Cursor.readImpl
  have : (read (SliceReader.mk r.fillBuf) n : _ × SliceReader) =
      SliceReader.readImpl (SliceReader.mk r.fillBuf) n := rfl
  rw [this]; unfold SliceReader.readImpl
  have ht : r.fillBuf.take (min n r.fillBuf.length) = r.fillBuf.take n := by
    rcases Nat.le_total n r.fillBuf.length with h | h
    · rw [Nat.min_eq_left h]
    · rw [Nat.min_eq_right h, List.take_length, List.take_of_length_le h]
  simp only [ht]

instance : LawfulReader Cursor where
  trace r := (r.inner.drop r.pos).map .byte
  read_step s n hn := by
    rw [Cursor.read_eq]
    simp only [Cursor.fillBuf_eq]
    generalize hr : s.inner.drop s.pos = rest
    have hdrop : s.inner.drop (s.pos + (rest.take n).length) = rest.drop n := by
      rw [← List.drop_drop, hr, List.length_take]
      rcases Nat.le_total n rest.length with h | h
      · rw [Nat.min_eq_left h]
      · rw [Nat.min_eq_right h, List.drop_length, List.drop_of_length_le h]
    rw [hdrop]
    cases rest with
    | nil => simpa using ReadStep.eof n
    | cons b bs =>
      have hsplit : (b :: bs).map Ev.byte =
          ((b :: bs).take n).map Ev.byte ++ ((b :: bs).drop n).map Ev.byte := by
        rw [← List.map_append, List.take_append_drop]
      rw [hsplit]
      refine .data _ _ _ ?_ (by simp; omega)
      obtain ⟨k, rfl⟩ : ∃ k, n = k + 1 := ⟨n - 1, by omega⟩
      simp

instance : ZeroReader Cursor where
  read_zero s := by
    left; rw [Cursor.read_eq]
    simp

/-- The events of one script entry. -/
def WireEv.events : WireEv → List Ev
  | .data bs => bs.map .byte
  | .fault e => [.fault e]

theorem Wire.readEvs_step (t : List WireEv) (n : Nat) (hn : 0 < n) :
    ReadStep (t.flatMap WireEv.events) n (Wire.readEvs t n).1 ((Wire.readEvs t n).2.flatMap WireEv.events) := by
  induction t with
  | nil => exact .eof n
  | cons ev t ih =>
    cases ev with
    | fault e => exact .fault _ _ _
    | data bs =>
      cases bs with
      | nil => simpa [Wire.readEvs, WireEv.events] using ih
      | cons b bs =>
        unfold Wire.readEvs
        split
        · rename_i h
          simp only [List.flatMap_cons, WireEv.events]
          exact .data _ _ _ (by simp) h
        · rename_i h
          simp only [List.flatMap_cons, WireEv.events]
          have hsplit : (b :: bs).map Ev.byte ++ List.flatMap WireEv.events t =
              ((b :: bs).take n).map Ev.byte ++
                (((b :: bs).drop n).map Ev.byte ++ List.flatMap WireEv.events t) := by
            rw [← List.append_assoc, ← List.map_append, List.take_append_drop]
          rw [hsplit]
          refine .data _ _ _ ?_ (by simp; omega)
          obtain ⟨k, rfl⟩ : ∃ k, n = k + 1 := ⟨n - 1, by omega⟩
          simp

instance : LawfulReader Wire where
  trace w := w.evs.flatMap WireEv.events
  read_step s n hn := Wire.readEvs_step s.evs n hn

theorem Wire.trace_eq (w : Wire) : trace w = w.evs.flatMap WireEv.events := rfl

instance : ZeroReader Wire where
  read_zero s := by
    rcases s with ⟨t⟩
    show ((Wire.readEvs t 0).1 = _ ∧ (Wire.readEvs t 0).2.flatMap WireEv.events = _) ∨
      ∃ e t', t.flatMap WireEv.events = _ ∧ (Wire.readEvs t 0).1 = _ ∧
        (Wire.readEvs t 0).2.flatMap WireEv.events = _
    induction t with
    | nil => exact .inl ⟨rfl, rfl⟩
    | cons ev t ih =>
      cases ev with
      | fault e => exact .inr ⟨e, _, rfl, rfl, rfl⟩
      | data bs =>
        cases bs with
        | nil => exact ih
        | cons b bs => left; simp [Wire.readEvs]; rfl

/-- Every finite sequence of events is the trace of some transport (here: one event per read). -/
theorem Wire.exists_trace (t : List Ev) : ∃ w : Wire, trace w = t := by
  refine ⟨⟨t.map fun | .byte b => .data [b] | .fault e => .fault e⟩, ?_⟩
  rw [Wire.trace_eq]
  induction t with
  | nil => rfl
  | cons ev t ih => cases ev <;> simp_all [WireEv.events]

end HttpIo
