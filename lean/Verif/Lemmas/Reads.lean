import Verif.Spec.Reads
import Verif.Model.Message

/-! Parsing a head that is accepted makes one read of one byte for each event it consumes. -/

namespace HttpIo
open Spec

/-- A relation that holds from reader to reader with the number of reads of one byte made in between, none of which found the
end of the stream. -/
structure Reads1 {σ : Type} [Reader σ] (R : σ → Nat → σ → Prop) : Prop where
  refl : ∀ s, R s 0 s
  trans : ∀ {a b d : σ} {j k : Nat}, R a j b → R b k d → R a (j + k) d
  step : ∀ {s s' : σ} {r : Except Err Bytes}, read s 1 = (r, s') → r ≠ .ok [] → R s 1 s'

section
variable {c : Cfg} {σ : Type} [LawfulReader σ] {R : σ → Nat → σ → Prop}

/-- The relation holds for as many reads as events were consumed. -/
def Counts (R : σ → Nat → σ → Prop) (s s' : σ) : Prop := ∃ k, R s k s' ∧ (trace s).length = (trace s').length + k

theorem Reads1.counts_refl (h : Reads1 R) (s : σ) : Counts R s s := ⟨0, h.refl s, rfl⟩

theorem Reads1.counts_trans (h : Reads1 R) {a b d : σ} (h1 : Counts R a b) (h2 : Counts R b d) : Counts R a d := by
  obtain ⟨j, g1, g2⟩ := h1
  obtain ⟨k, g3, g4⟩ := h2
  exact ⟨j + k, h.trans g1 g3, by omega⟩

theorem Reads1.counts_step (h : Reads1 R) {s s' : σ} {r : Except Err Bytes} (hr : read s 1 = (r, s')) (hne : r ≠ .ok []) :
    Counts R s s' := by
  refine ⟨1, h.step hr hne, ?_⟩
  have hs := LawfulReader.read_step s 1 (by omega)
  rw [hr] at hs
  dsimp only at hs
  cases r with
  | error e => rw [hs.error_inv]; simp
  | ok bs =>
    rcases hs.ok_inv with ⟨h1, _⟩ | ⟨h1, h2, h3⟩
    · exact absurd (by rw [h1]) hne
    · rw [h3]
      have : bs.length ≠ 0 := mt List.length_eq_zero_iff.1 h1
      simp; omega

theorem Reads1.bytesNext (h : Reads1 R) {s s' : σ} {r : Except Err UInt8} (hb : bytesNext c s = (some r, s')) : Counts R s s' := by
  fun_induction HttpIo.bytesNext c s with
  | case1 => simp at hb
  | case2 s b bs s1 hr =>
    simp only [Prod.mk.injEq] at hb
    rw [← hb.2]; exact h.counts_step hr (by simp)
  | case3 s e s1 hr hret ih => exact h.counts_trans (h.counts_step hr (by simp)) (ih hb)
  | case4 s e s1 hr hret =>
    simp only [Prod.mk.injEq] at hb
    rw [← hb.2]; exact h.counts_step hr (by simp)

theorem Reads1.innerNext (h : Reads1 R) {s s' : σ} {line : Bytes} {o : Option Bytes}
    (hb : innerNextLoop c line s = (.ok o, s')) : Counts R s s' := by
  fun_induction innerNextLoop c line s with
  | case1 => simp at hb
  | case2 => simp at hb
  | case3 line s b s1 h1 l hc before hb1 =>
    simp only [Prod.mk.injEq] at hb; rw [← hb.2]; exact h.bytesNext h1
  | case4 line s b s1 h1 l hc before hb1 hb2 =>
    simp only [Prod.mk.injEq] at hb; rw [← hb.2]; exact h.bytesNext h1
  | case5 line s b s1 h1 l hc before hb1 hb2 => simp at hb
  | case6 line s b s1 h1 l hc ih => exact h.counts_trans (h.bytesNext h1) (ih hb)

theorem Reads1.crlfNext (h : Reads1 R) {s s' : σ} {item : Option (Except Err Bytes)} (hb : crlfNext c s = (item, s'))
    (hi : ∀ e, item ≠ some (.error e)) : Counts R s s' := by
  unfold HttpIo.crlfNext at hb
  rcases h1 : HttpIo.innerNext c s with ⟨e | _ | l, s1⟩ <;> rw [h1] at hb <;> simp only [Prod.mk.injEq] at hb
  · exact absurd hb.1.symm (hi e)
  · rw [← hb.2]; exact h.innerNext h1
  · rw [← hb.2]; exact h.innerNext h1

theorem Reads1.gather (h : Reads1 R) {s s' : σ} {line line' : Bytes} {item : Option (Except Err Bytes)}
    (hb : HttpHeaders.gather c line s = (line', item, s')) (hi : ∀ e, item ≠ some (.error e)) : Counts R s s' := by
  fun_induction HttpHeaders.gather c line s with
  | case1 line s next s1 h1 hs ih => exact h.counts_trans (h.crlfNext h1 (by simp)) (ih hb)
  | case2 line s next s1 h1 hs =>
    simp only [Prod.mk.injEq] at hb
    rw [← hb.2.2]; exact h.crlfNext h1 (by simp)
  | case3 line s item1 s1 hno h1 =>
    simp only [Prod.mk.injEq] at hb
    rw [← hb.2.2]; exact h.crlfNext h1 (by rw [hb.2.1]; exact hi)

variable [CaseMap]

theorem Reads1.deserializeLoop (h : Reads1 R) {s s' : σ} {item : Option (Except Err Bytes)} {acc hs : List HttpHeader}
    (hb : HttpHeaders.deserializeLoop c item acc s = (.ok hs, s')) : (∀ e, item ≠ some (.error e)) ∧ Counts R s s' := by
  fun_induction HttpHeaders.deserializeLoop c item acc s with
  | case1 acc s =>
    simp only [Prod.mk.injEq] at hb; rw [← hb.2]; exact ⟨by simp, h.counts_refl s⟩
  | case2 => simp at hb
  | case3 acc s line line1 item1 s1 hg hd h2 ih =>
    obtain ⟨g1, g2⟩ := ih hb
    exact ⟨by simp, h.counts_trans (h.gather hg g1) g2⟩
  | case4 => simp at hb
  | case5 => simp at hb

theorem Reads1.parseHead (h : Reads1 R) {α : Type} {start : Bytes → Res α} {s s' : σ} {x : α × HttpHeaders × Option Bytes × Option Nat}
    (hb : parseHead c start s = (.ok x, s')) : Counts R s s' := by
  unfold HttpIo.parseHead at hb
  rcases h1 : expectNext c s with ⟨e | line, s1⟩
  · rw [h1] at hb; simp at hb
  · rw [h1] at hb
    dsimp only at hb
    have g1 : Counts R s s1 := by
      unfold expectNext at h1
      rcases h2 : HttpIo.innerNext c s with ⟨e | _ | l, s2⟩ <;> rw [h2] at h1 <;> simp only [Prod.mk.injEq, reduceCtorEq, false_and] at h1
      rw [← h1.2]; exact h.innerNext h2
    rcases h2 : start line with a | e | _ <;> rw [h2] at hb <;> dsimp only at hb
    · rcases h3 : HttpHeaders.deserialize c s1 with ⟨hs | e | _, s2⟩ <;> rw [h3] at hb <;> dsimp only at hb
      · have g2 : Counts R s1 s2 := by
          unfold HttpHeaders.deserialize at h3
          rcases h4 : HttpIo.crlfNext c s1 with ⟨item, s3⟩
          rw [h4] at h3
          dsimp only at h3
          rcases h5 : HttpHeaders.deserializeLoop c item [] s3 with ⟨hs1 | e | _, s4⟩ <;> rw [h5] at h3 <;>
            simp only [Prod.mk.injEq, reduceCtorEq, false_and] at h3
          obtain ⟨g3, g4⟩ := h.deserializeLoop h5
          rw [← h3.2]
          exact h.counts_trans (h.crlfNext h4 g3) g4
        rcases h4 : contentLengthOf hs with n | e | _ <;> rw [h4] at hb <;> simp only [Prod.mk.injEq, reduceCtorEq, false_and] at hb
        rw [← hb.2]
        exact h.counts_trans g1 g2
      · simp at hb
      · simp at hb
    · simp at hb
    · simp at hb

end

end HttpIo
