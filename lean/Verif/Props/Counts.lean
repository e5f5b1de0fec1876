import Verif.Spec.Counts
import Verif.Model.ReaderLaws
import Verif.Model.WriterLaws

/-! C168: a stream that claims more than it was given room for. -/

namespace HttpIo
open Spec

section
variable {σ τ : Type} [RawReader σ] [RawWriter τ]

theorem rawReadExact_honest {P : σ → Prop} (hP : ReadsHonestly P) (s : σ) (buf : Bytes) (hs : P s) :
    (rawReadExact s buf).1 ≠ .panic := by
  fun_induction rawReadExact s buf with
  | case1 => simp
  | case2 => simp
  | case3 => simp
  | case4 s buf hb k buf' s' h hk more s'' hrec ih => simp
  | case5 s buf hb k buf' s' h hk e s'' hrec ih => simp
  | case6 s buf hb k buf' s' h hk s'' hrec ih =>
    have h1 := hP.stays s buf hs
    rw [h] at h1
    have := ih h1
    rw [hrec] at this
    simp at this
  | case7 s buf hb k buf' s' h hk =>
    have h1 := hP.fits s buf (k + 1) hs (by rw [h])
    have h2 := rawRead_length s buf
    rw [h] at h2
    dsimp only at h2
    omega

theorem rawWriteAll_honest {P : τ → Prop} (hP : WritesHonestly P) (s : τ) (buf : Bytes) (hs : P s) :
    (rawWriteAll s buf).1 ≠ .panic := by
  fun_induction rawWriteAll s buf with
  | case1 => simp
  | case2 => simp
  | case3 => simp
  | case4 s buf hb k s' h hk ih =>
    have h1 := hP.stays s buf hs
    rw [h] at h1
    exact ih h1
  | case5 s buf hb k s' h hk =>
    have h1 := hP.fits s buf (k + 1) hs (by rw [h])
    omega

/-- Nothing panics over streams that keep to the room they are given: neither `read_exact`, `write_all` and `copy`, nor the
reading of a limited body, whose limit then goes down by just what was read. -/
theorem C168_honest {P : σ → Prop} {Q : τ → Prop} (hP : ReadsHonestly P) (hQ : WritesHonestly Q) (s : σ) (w : τ)
    (buf : Bytes) (hs : P s) (hw : Q w) :
    (rawReadExact s buf).1 ≠ .panic ∧ (rawWriteAll w buf).1 ≠ .panic ∧ (rawCopyTurn s w buf).1 ≠ .panic ∧
    ∀ (checked : Bool) (limit : Nat), (rawTakeRead checked ⟨s, limit⟩ buf).1 ≠ .panic ∧
      ∀ n, (rawTakeRead checked ⟨s, limit⟩ buf).1 = .ok n →
        n ≤ buf.length ∧ n ≤ limit ∧ (rawTakeRead checked ⟨s, limit⟩ buf).2.2.limit = limit - n := by
  refine ⟨rawReadExact_honest hP s buf hs, rawWriteAll_honest hQ w buf hw, ?_, ?_⟩
  · unfold rawCopyTurn
    have hf := hP.fits s buf
    have hl := rawRead_length s buf
    rcases hr : rawRead s buf with ⟨_ | _ | k, buf', s'⟩
    · simp
    · simp
    · rw [hr] at hf hl
      have := hf (k + 1) hs rfl
      dsimp only at hl ⊢
      rw [if_pos (by omega)]
      have h2 := rawWriteAll_honest hQ w (buf'.take (k + 1)) hw
      rcases h3 : rawWriteAll w (buf'.take (k + 1)) with ⟨_ | _ | _, w'⟩
      · simp
      · simp
      · rw [h3] at h2; simp at h2
  · intro checked limit
    unfold rawTakeRead
    dsimp only
    by_cases h0 : limit = 0
    · rw [if_pos h0]
      refine ⟨by simp, fun n hn => ?_⟩
      simp only [Res.ok.injEq] at hn
      subst hn
      exact ⟨by omega, by omega, by simp⟩
    · rw [if_neg h0]
      have hf := hP.fits s (buf.take (min buf.length limit))
      rcases hr : rawRead s (buf.take (min buf.length limit)) with ⟨_ | n, b, s'⟩
      · simp
      · rw [hr] at hf
        have := hf n hs rfl
        simp only [List.length_take] at this
        dsimp only
        rw [if_pos (by omega)]
        refine ⟨by simp, fun m hm => ?_⟩
        simp only [Res.ok.injEq] at hm
        subst hm
        exact ⟨by omega, by omega, rfl⟩

/-- A number that cannot be right makes `read_exact`, `copy` and `write_all` panic, and so it does a limited body, if it is
above the limit and the subtraction is checked. A `Bytes` takes any number for one byte. -/
theorem C168_overclaim_partial (s : σ) (w : τ) (buf : Bytes) (hb : buf ≠ []) :
    (∀ n, (rawRead s buf).1 = .ok n → buf.length < n →
      (rawReadExact s buf).1 = .panic ∧ (rawCopyTurn s w buf).1 = .panic) ∧
    (∀ n, (rawWrite w buf).1 = .ok n → buf.length < n → (rawWriteAll w buf).1 = .panic) ∧
    (∀ limit n, 0 < limit → (rawRead s (buf.take limit)).1 = .ok n → limit < n →
      (rawTakeRead true ⟨s, limit⟩ buf).1 = .panic) ∧
    (∀ n b, (rawRead s [0]).1 = .ok n → 0 < n → (rawRead s [0]).2.1 = [b] → (rawBytesNext s).1 = some (.ok b)) := by
  refine ⟨fun n hn hlt => ?_, fun n hn hlt => ?_, fun limit n h0 hn hlt => ?_, fun n b hn h0 hb => ?_⟩
  · have hl := rawRead_length s buf
    rcases hr : rawRead s buf with ⟨_ | _ | k, buf', s'⟩ <;> rw [hr] at hn hl <;> simp only [reduceCtorEq, Except.ok.injEq] at hn
    · omega
    · dsimp only at hl
      constructor
      · rw [rawReadExact, dif_neg hb]
        split
        · rename_i h; rw [hr] at h; simp at h
        · rename_i h; rw [hr] at h; simp at h
        · rename_i h; rw [hr] at h
          simp only [Prod.mk.injEq, Except.ok.injEq] at h
          obtain ⟨h1, h2, h3⟩ := h
          rw [if_neg (by rw [← h2]; omega)]
      · unfold rawCopyTurn
        rw [hr]
        dsimp only
        rw [if_neg (by omega)]
  · rw [rawWriteAll, dif_neg hb]
    rcases hr : rawWrite w buf with ⟨_ | _ | k, w'⟩ <;> rw [hr] at hn <;> simp only [reduceCtorEq, Except.ok.injEq] at hn
    · omega
    · dsimp only
      rw [if_neg (by omega)]
  · unfold rawTakeRead
    dsimp only
    rw [if_neg (by omega)]
    have : buf.take (min buf.length limit) = buf.take limit := by
      rw [Nat.min_comm, ← List.take_take, List.take_length]
    rw [this]
    rcases hr : rawRead s (buf.take limit) with ⟨_ | m, b, s'⟩ <;> rw [hr] at hn <;> simp only [reduceCtorEq, Except.ok.injEq] at hn
    dsimp only
    rw [if_neg (by omega)]
    rfl
  · unfold rawBytesNext
    rcases hr : rawRead s [0] with ⟨_ | _ | m, b', s'⟩ <;> rw [hr] at hn hb <;> simp only [reduceCtorEq, Except.ok.injEq] at hn
    · omega
    · dsimp only at hb ⊢
      rw [hb]; rfl

/-- Where the subtraction is checked, the limit of a body never goes up, whatever the stream claims: what is handed on, as
counted by the stream, and what is left make up what was left before. -/
theorem C168_limit_partial (t : Take σ) (buf : Bytes) (n : Nat) (h : (rawTakeRead true t buf).1 = .ok n) :
    n + (rawTakeRead true t buf).2.2.limit = t.limit := by
  unfold rawTakeRead at h ⊢
  dsimp only at h ⊢
  by_cases h0 : t.limit = 0
  · rw [if_pos h0] at h ⊢
    simp only [Res.ok.injEq] at h
    dsimp only
    omega
  · rw [if_neg h0] at h ⊢
    rcases hr : rawRead t.inner (buf.take (min buf.length t.limit)) with ⟨_ | m, b, s'⟩ <;> rw [hr] at h <;> dsimp only at h ⊢
    · simp at h
    · by_cases hm : m ≤ t.limit
      · rw [if_pos hm] at h ⊢
        simp only [Res.ok.injEq] at h
        dsimp only
        omega
      · rw [if_neg hm] at h
        simp at h

end

/-- A stream that says of every read that it was `claim` bytes. -/
structure Boaster where
  claim : Nat

instance : RawReader Boaster where
  rawRead s buf := (.ok s.claim, buf, s)
  rawRead_length _ _ := rfl

instance : RawWriter Boaster where
  rawWrite s _ := (.ok s.claim, s)

/-- A number that cannot be right is believed in two cases. A limited body hands on any number up to its limit, however small
the buffer (in every build). And where the subtraction is not checked it hands on any number at all, and has then
more left than it had: the end of the body is lost. -/
theorem C168_false :
    (∀ checked : Bool, ¬ ∀ (t : Take Boaster) (buf : Bytes) (n : Nat),
      (rawTakeRead checked t buf).1 = .ok n → n ≤ buf.length) ∧
    ¬ ∀ (t : Take Boaster) (buf : Bytes) (n : Nat), (rawTakeRead false t buf).1 = .ok n →
      (rawTakeRead false t buf).2.2.limit ≤ t.limit := by
  constructor
  · intro checked h
    have := h ⟨⟨5⟩, 10⟩ [0, 0] 5 (by cases checked <;> rfl)
    simp at this
  · intro h
    have := h ⟨⟨3⟩, 2⟩ [0, 0] 3 rfl
    revert this
    decide

section
variable {σ : Type} [LawfulReader σ]

theorem read_fits (s : σ) (n : Nat) (hn : 0 < n) {bs : Bytes} {s' : σ} (h : read s n = (.ok bs, s')) : bs.length ≤ n := by
  have := LawfulReader.read_step s n hn
  rw [h] at this
  generalize trace s = t at *
  generalize trace (Except.ok bs, s').2 = t' at *
  dsimp only at this
  cases this with
  | eof => simp
  | data => assumption

theorem asRaw_ok {s s' : σ} {buf bs : Bytes} (hb : buf ≠ []) (h : read s buf.length = (.ok bs, s')) :
    asRaw s buf = (.ok bs.length, bs ++ buf.drop bs.length, s') := by
  have hf := read_fits s _ (List.length_pos_iff.mpr hb) h
  unfold asRaw
  rw [h]
  dsimp only
  rw [List.take_of_length_le (by simp only [List.length_append, List.length_drop]; omega)]

theorem asRaw_error {s s' : σ} {buf : Bytes} {e : Err} (h : read s buf.length = (.error e, s')) :
    asRaw s buf = (.error e, buf, s') := by
  unfold asRaw
  rw [h]

theorem rawReadExact_agrees (s : σ) (n : Nat) : ∀ buf : Bytes, buf.length = n →
    letI : RawReader σ := LawfulReader.raw
    rawReadExact s buf =
      match readExact ⟨false⟩ s n with | (.ok bs, s') => (.ok bs, s') | (.error e, s') => (.err e, s') := by
  letI : RawReader σ := LawfulReader.raw
  have hret : ∀ e, (⟨false⟩ : Cfg).retries e = false := fun e => rfl
  fun_induction readExact ⟨false⟩ s n with
  | case1 s =>
    intro buf hl
    rw [rawReadExact, dif_pos (List.length_eq_zero_iff.mp hl)]
  | case2 s n hn s' h =>
    intro buf hl
    have hb : buf ≠ [] := by rintro rfl; exact hn hl.symm
    subst hl
    rw [rawReadExact, dif_neg hb]
    have hr := asRaw_ok hb h
    split
    · rename_i h1; rw [show @rawRead σ LawfulReader.raw s buf = asRaw s buf from rfl, hr] at h1; simp at h1
    · rename_i h1; rw [show @rawRead σ LawfulReader.raw s buf = asRaw s buf from rfl, hr] at h1
      simp only [Prod.mk.injEq] at h1
      rw [← h1.2.2]; rfl
    · rename_i h1; rw [show @rawRead σ LawfulReader.raw s buf = asRaw s buf from rfl, hr] at h1; simp at h1
  | case3 s n hn b bs s' h more s'' hrec ih =>
    intro buf hl
    have hb : buf ≠ [] := by rintro rfl; exact hn hl.symm
    subst hl
    have hf := read_fits s _ (List.length_pos_iff.mpr hb) h
    rw [rawReadExact, dif_neg hb]
    have hr := asRaw_ok hb h
    split
    · rename_i h1; rw [show @rawRead σ LawfulReader.raw s buf = asRaw s buf from rfl, hr] at h1; simp at h1
    · rename_i h1; rw [show @rawRead σ LawfulReader.raw s buf = asRaw s buf from rfl, hr] at h1; simp at h1
    · rename_i k buf' s1 h1
      rw [show @rawRead σ LawfulReader.raw s buf = asRaw s buf from rfl, hr] at h1
      simp only [Prod.mk.injEq, Except.ok.injEq, List.length_cons] at h1
      obtain ⟨h1, h2, h3⟩ := h1
      have hk : k + 1 = (b :: bs).length := by simp only [List.length_cons]; omega
      rw [← h2, hk, List.length_cons, if_pos (by simp only [List.length_append, List.length_drop, List.length_cons]; omega)]
      rw [List.drop_left' (by simp), List.take_left' (by simp), ← h3]
      rw [ih (buf.drop (bs.length + 1)) (by simp), hrec]
  | case4 s n hn b bs s' h e s'' hrec ih =>
    intro buf hl
    have hb : buf ≠ [] := by rintro rfl; exact hn hl.symm
    subst hl
    have hf := read_fits s _ (List.length_pos_iff.mpr hb) h
    rw [rawReadExact, dif_neg hb]
    have hr := asRaw_ok hb h
    split
    · rename_i h1; rw [show @rawRead σ LawfulReader.raw s buf = asRaw s buf from rfl, hr] at h1; simp at h1
    · rename_i h1; rw [show @rawRead σ LawfulReader.raw s buf = asRaw s buf from rfl, hr] at h1; simp at h1
    · rename_i k buf' s1 h1
      rw [show @rawRead σ LawfulReader.raw s buf = asRaw s buf from rfl, hr] at h1
      simp only [Prod.mk.injEq, Except.ok.injEq, List.length_cons] at h1
      obtain ⟨h1, h2, h3⟩ := h1
      have hk : k + 1 = (b :: bs).length := by simp only [List.length_cons]; omega
      rw [← h2, hk, List.length_cons, if_pos (by simp only [List.length_append, List.length_drop, List.length_cons]; omega)]
      rw [List.drop_left' (by simp), ← h3]
      rw [ih (buf.drop (bs.length + 1)) (by simp), hrec]
  | case5 s n hn e s' h hr ih => simp [hret] at hr
  | case6 s n hn e s' h hr0 =>
    intro buf hl
    have hb : buf ≠ [] := by rintro rfl; exact hn hl.symm
    subst hl
    rw [rawReadExact, dif_neg hb]
    have hr := asRaw_error h
    split
    · rename_i h1; rw [show @rawRead σ LawfulReader.raw s buf = asRaw s buf from rfl, hr] at h1
      simp only [Prod.mk.injEq, Except.error.injEq] at h1
      rw [← h1.1, ← h1.2.2]
    · rename_i h1; rw [show @rawRead σ LawfulReader.raw s buf = asRaw s buf from rfl, hr] at h1; simp at h1
    · rename_i h1; rw [show @rawRead σ LawfulReader.raw s buf = asRaw s buf from rfl, hr] at h1; simp at h1

/-- The readers of the model are streams that keep to their room, and over them the functions above are the model's
(without `std`). -/
theorem C168_readers (s : σ) :
    letI : RawReader σ := LawfulReader.raw
    (∀ (buf : Bytes) (k : Nat), buf ≠ [] → (rawRead s buf).1 = .ok k → k ≤ buf.length) ∧
    (∀ buf : Bytes, rawReadExact s buf = match readExact ⟨false⟩ s buf.length with
      | (.ok bs, s') => (.ok bs, s') | (.error e, s') => (.err e, s')) ∧
    rawBytesNext s = bytesNext ⟨false⟩ s ∧
    ∀ (checked : Bool) (limit : Nat) (buf : Bytes), buf ≠ [] → rawTakeRead checked ⟨s, limit⟩ buf =
      match read (Take.mk s limit) buf.length with
      | (.ok bs, t') => (.ok bs.length, bs ++ buf.drop bs.length, t')
      | (.error e, t') => (.err e, buf, t') := by
  refine ⟨fun buf k hb hk => ?_, fun buf => rawReadExact_agrees s _ buf rfl, ?_, fun checked limit buf hb => ?_⟩
  · rcases hr : read s buf.length with ⟨e | bs, s'⟩
    · rw [show @rawRead σ LawfulReader.raw s buf = asRaw s buf from rfl, asRaw_error hr] at hk; simp at hk
    · rw [show @rawRead σ LawfulReader.raw s buf = asRaw s buf from rfl, asRaw_ok hb hr] at hk
      simp only [Except.ok.injEq] at hk
      rw [← hk]
      exact read_fits s _ (List.length_pos_iff.mpr hb) hr
  · unfold rawBytesNext
    rw [bytesNext]
    rcases hr : read s 1 with ⟨e | _ | ⟨b, bs⟩, s'⟩
    · rw [show @rawRead σ LawfulReader.raw s [0] = asRaw s [0] from rfl, asRaw_error (buf := [0]) hr]
      rfl
    · rw [show @rawRead σ LawfulReader.raw s [0] = asRaw s [0] from rfl, asRaw_ok (buf := [0]) (by simp) hr]
      rfl
    · rw [show @rawRead σ LawfulReader.raw s [0] = asRaw s [0] from rfl, asRaw_ok (buf := [0]) (by simp) hr]
      rfl
  · unfold rawTakeRead
    rw [Take.read_def]
    unfold Take.readImpl
    dsimp only
    by_cases h0 : limit = 0
    · rw [if_pos h0, if_pos h0]; simp
    · rw [if_neg h0, if_neg h0]
      have hpos := List.length_pos_iff.mpr hb
      have hlen : (buf.take (min buf.length limit)).length = min buf.length limit := by
        simp only [List.length_take]; omega
      have hne : buf.take (min buf.length limit) ≠ [] := by
        intro h
        rw [h] at hlen
        simp only [List.length_nil] at hlen
        omega
      rcases hr : read s (min buf.length limit) with ⟨e | bs, s'⟩
      · rw [show @rawRead σ LawfulReader.raw s (buf.take (min buf.length limit)) = asRaw s (buf.take (min buf.length limit)) from rfl,
          asRaw_error (by rw [hlen]; exact hr)]
        dsimp only
        rw [List.take_append_drop]
      · have hf := read_fits s _ (by omega) hr
        rw [show @rawRead σ LawfulReader.raw s (buf.take (min buf.length limit)) = asRaw s (buf.take (min buf.length limit)) from rfl,
          asRaw_ok hne (by rw [hlen]; exact hr)]
        dsimp only
        rw [if_pos (by omega)]
        have : (buf.take (min buf.length limit)).drop bs.length ++ buf.drop (min buf.length limit) = buf.drop bs.length := by
          conv => rhs; rw [← List.take_append_drop (min buf.length limit) buf]
          rw [List.drop_append_of_le_length (by omega)]
        rw [List.append_assoc, this]

end

/-- The writers of the model are streams that keep to what they are given, and over them `write_all` is the model's
(without `std`). -/
theorem C168_writers {σ : Type} [FiniteWriter σ] (s : σ) (buf : Bytes) :
    letI : RawWriter σ := FiniteWriter.raw
    (∀ k, (rawWrite s buf).1 = .ok k → k ≤ buf.length) ∧
    rawWriteAll s buf = match defaultWriteAll ⟨false⟩ s buf with
      | (.ok (), s') => (.ok (), s') | (.error e, s') => (.err e, s') := by
  constructor
  · intro k hk
    exact (FiniteWriter.write_ok (Prod.ext hk rfl : write s buf = (.ok k, (write s buf).2))).1
  · letI : RawWriter σ := FiniteWriter.raw
    unfold defaultWriteAll
    fun_induction writeLoop ⟨false⟩ s buf with
    | case1 s => rw [rawWriteAll, dif_pos rfl]
    | case2 s buf hb s' h =>
      rw [rawWriteAll, dif_neg hb, show @rawWrite σ FiniteWriter.raw s buf = write s buf from rfl, h]; rfl
    | case3 s buf hb k s' h ih =>
      rw [rawWriteAll, dif_neg hb, show @rawWrite σ FiniteWriter.raw s buf = write s buf from rfl, h]
      have := (FiniteWriter.write_ok h).1
      dsimp only
      rw [if_pos this]
      exact ih
    | case4 s buf hb e s' h hr => simp [Cfg.retries] at hr
    | case5 s buf hb e s' h hr =>
      rw [rawWriteAll, dif_neg hb, show @rawWrite σ FiniteWriter.raw s buf = write s buf from rfl, h]

section
attribute [local instance] LawfulReader.raw

/-- A slice in memory is a stream that keeps to its room. -/
example : ReadsHonestly (σ := SliceReader) (fun _ => True) :=
  ⟨fun _ _ _ => trivial, fun s buf n _ hn => by
    simp only [rawRead, asRaw, read, SliceReader.readImpl, Except.ok.injEq, List.length_take] at hn
    omega⟩

end

/-- A stream that claims nothing keeps to what it is given. -/
example : WritesHonestly (σ := Boaster) (fun s => s.claim = 0) :=
  ⟨fun _ _ h => h, fun s buf n h hn => by
    simp only [rawWrite, Except.ok.injEq] at hn
    omega⟩

/-- Three bytes in a buffer of two. -/
example : (rawReadExact (Boaster.mk 3) [0, 0]).1 = .panic :=
  ((C168_overclaim_partial (Boaster.mk 3) (Boaster.mk 0) [0, 0] (by simp)).1 3 rfl (by simp)).1

/-- Two bytes of ten that are left, in a buffer of one. -/
example : 2 + (rawTakeRead true ⟨Boaster.mk 2, 10⟩ [0]).2.2.limit = 10 := C168_limit_partial _ _ 2 rfl

/-- Without checks, after three bytes of a body of two, more than 10^19 are left. -/
example : (rawTakeRead false ⟨Boaster.mk 3, 2⟩ [0, 0]).2.2.limit = 2 ^ 64 - 1 := by decide

/-- `read_exact` on a slice. -/
example : @rawReadExact SliceReader LawfulReader.raw ⟨b!"abc"⟩ [0, 0] = (.ok b!"ab", ⟨b!"c"⟩) := by
  rw [(C168_readers (SliceReader.mk b!"abc")).2.1 [0, 0]]
  decide +kernel

/-- `write_all` on a writer that takes two bytes at a time. -/
example : (@rawWriteAll Sink FiniteWriter.raw ⟨[], 0, [.accept 2, .accept 2]⟩ b!"abc").1 = .ok () := by
  rw [(C168_writers (Sink.mk [] 0 [.accept 2, .accept 2]) b!"abc").2]
  decide +kernel

end HttpIo
