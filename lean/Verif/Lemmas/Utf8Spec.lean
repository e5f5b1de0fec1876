import Verif.Lemmas.Utf8
import Verif.Spec.Utf8

/-! The validator accepts exactly the encodings of scalar values. -/

set_option linter.unusedSimpArgs false

namespace HttpIo
open Spec

theorem u8le {a b : UInt8} : a ≤ b ↔ a.toNat ≤ b.toNat := UInt8.le_iff_toNat_le
theorem u8lt {a b : UInt8} : a < b ↔ a.toNat < b.toNat := UInt8.lt_iff_toNat_lt
theorem u8ofNat {n : Nat} (h : n < 256) : (UInt8.ofNat n).toNat = n := UInt8.toNat_ofNat_of_lt' h
theorem u8eq {b : UInt8} {n : Nat} (h : n = b.toNat) : UInt8.ofNat n = b := by subst h; exact UInt8.ofNat_toNat
theorem u8beq {a b : UInt8} : (a == b) = true ↔ a.toNat = b.toNat := by
  rw [beq_iff_eq]; exact UInt8.toNat_inj.symm

theorem isCont_iff {b : UInt8} : isCont b = true ↔ 128 ≤ b.toNat ∧ b.toNat ≤ 191 := by
  unfold isCont; simp [u8le]

theorem validUtf8_utf8Char {v : Nat} (hv : Scalar v) (rest : Bytes) :
    validUtf8 (utf8Char v ++ rest) = validUtf8 rest := by
  unfold Scalar at hv
  unfold utf8Char
  split
  · rw [List.cons_append, List.nil_append, validUtf8_cons_ascii]
    rw [u8lt, u8ofNat (by omega)]; assumption
  · split
    · simp only [List.cons_append, List.nil_append]
      rw [validUtf8_cons, if_neg, if_pos]
      · have : isCont (UInt8.ofNat (0x80 + v % 64)) = true := by
          rw [isCont_iff, u8ofNat (by omega)]; omega
        simp only [this, Bool.true_and]
      · simp only [Bool.and_eq_true, decide_eq_true_eq, u8le]
        rw [u8ofNat (by omega)]; simp; omega
      · rw [u8lt, u8ofNat (by omega)]; simp; omega
    · split
      · simp only [List.cons_append, List.nil_append]
        have e0 : (UInt8.ofNat (0xE0 + v / 4096)).toNat = 0xE0 + v / 4096 := u8ofNat (by omega)
        have e1 : (UInt8.ofNat (0x80 + v / 64 % 64)).toNat = 0x80 + v / 64 % 64 := u8ofNat (by omega)
        have e2 : (UInt8.ofNat (0x80 + v % 64)).toNat = 0x80 + v % 64 := u8ofNat (by omega)
        generalize UInt8.ofNat (0xE0 + v / 4096) = b0 at *
        generalize UInt8.ofNat (0x80 + v / 64 % 64) = b1 at *
        generalize UInt8.ofNat (0x80 + v % 64) = b2 at *
        rw [validUtf8_cons, if_neg, if_neg, if_pos]
        · have h1 : isCont b1 = true := by rw [isCont_iff]; omega
          have h2 : isCont b2 = true := by rw [isCont_iff]; omega
          have h3 : (if b0 == 0xE0 then decide (0xA0 ≤ b1) && decide (b1 ≤ 0xBF)
             else if b0 == 0xED then decide (0x80 ≤ b1) && decide (b1 ≤ 0x9F) else isCont b1) = true := by
            split
            · rename_i h; rw [u8beq] at h; simp [u8le] at h ⊢; omega
            · split
              · rename_i h; rw [u8beq] at h; simp [u8le] at h ⊢; omega
              · exact h1
          dsimp only
          rw [h3, h2]; rfl
        · simp [u8le]; omega
        · simp [u8le]; omega
        · simp [u8lt]; omega
      · simp only [List.cons_append, List.nil_append]
        have e0 : (UInt8.ofNat (0xF0 + v / 262144)).toNat = 0xF0 + v / 262144 := u8ofNat (by omega)
        have e1 : (UInt8.ofNat (0x80 + v / 4096 % 64)).toNat = 0x80 + v / 4096 % 64 := u8ofNat (by omega)
        have e2 : (UInt8.ofNat (0x80 + v / 64 % 64)).toNat = 0x80 + v / 64 % 64 := u8ofNat (by omega)
        have e3 : (UInt8.ofNat (0x80 + v % 64)).toNat = 0x80 + v % 64 := u8ofNat (by omega)
        generalize UInt8.ofNat (0xF0 + v / 262144) = b0 at *
        generalize UInt8.ofNat (0x80 + v / 4096 % 64) = b1 at *
        generalize UInt8.ofNat (0x80 + v / 64 % 64) = b2 at *
        generalize UInt8.ofNat (0x80 + v % 64) = b3 at *
        rw [validUtf8_cons, if_neg, if_neg, if_neg, if_pos]
        · have h1 : isCont b1 = true := by rw [isCont_iff]; omega
          have h2 : isCont b2 = true := by rw [isCont_iff]; omega
          have h2' : isCont b3 = true := by rw [isCont_iff]; omega
          have h3 : (if b0 == 0xF0 then decide (0x90 ≤ b1) && decide (b1 ≤ 0xBF)
             else if b0 == 0xF4 then decide (0x80 ≤ b1) && decide (b1 ≤ 0x8F) else isCont b1) = true := by
            split
            · rename_i h; rw [u8beq] at h; simp [u8le] at h ⊢; omega
            · split
              · rename_i h; rw [u8beq] at h; simp [u8le] at h ⊢; omega
              · exact h1
          dsimp only
          rw [h3, h2, h2']; rfl
        · simp [u8le]; omega
        · simp [u8le]; omega
        · simp [u8le]; omega
        · simp [u8lt]; omega

theorem IsText.cons {v : Nat} {bs : Bytes} (hv : Scalar v) (h : IsText bs) : IsText (utf8Char v ++ bs) := by
  obtain ⟨vs, h1, rfl⟩ := h
  exact ⟨v :: vs, by simpa using ⟨hv, h1⟩, by simp⟩

theorem validUtf8_iff (bs : Bytes) : validUtf8 bs = true ↔ IsText bs := by
  constructor
  · intro h
    fun_induction validUtf8 bs with
    | case1 => exact ⟨[], by simp, rfl⟩
    | case2 b0 rest h0 ih =>
      rw [u8lt] at h0
      have h0' : b0.toNat < 128 := h0
      have := IsText.cons (v := b0.toNat) (.inl (by omega)) (ih h)
      rwa [utf8Char, if_pos (by omega), u8eq rfl] at this
    | case3 b0 h0 h1 b1 rest ih =>
      simp only [Bool.and_eq_true, decide_eq_true_eq, u8le, u8lt, isCont_iff] at h h0 h1
      have k1 : (0xC2 : UInt8).toNat = 0xC2 := rfl
      have k2 : (0xDF : UInt8).toNat = 0xDF := rfl
      rw [k1, k2] at h1
      have := IsText.cons (v := (b0.toNat - 0xC0) * 64 + (b1.toNat - 0x80)) (.inl (by omega)) (ih h.2)
      rwa [utf8Char, if_neg (by omega), if_pos (by omega), u8eq (b := b0) (by omega), u8eq (b := b1) (by omega)] at this
    | case5 b0 h0 h1 h2 b1 b2 rest ih =>
      simp only [Bool.and_eq_true, decide_eq_true_eq, u8le, u8lt, isCont_iff] at h h0 h1 h2
      obtain ⟨⟨ha, hb⟩, hc⟩ := h
      have k1 : (0xE0 : UInt8).toNat = 0xE0 := rfl
      have k2 : (0xEF : UInt8).toNat = 0xEF := rfl
      rw [k1, k2] at h2
      have hb1 : 128 ≤ b1.toNat ∧ b1.toNat ≤ 191 ∧ (b0.toNat = 0xE0 → 160 ≤ b1.toNat) ∧
          (b0.toNat = 0xED → b1.toNat ≤ 0x9F) := by
        split at ha
        · rename_i h; rw [u8beq] at h; simp [u8le] at ha h; omega
        · rename_i hn; rw [u8beq] at hn
          split at ha
          · rename_i h; rw [u8beq] at h; simp [u8le] at ha h; omega
          · rename_i hn2; rw [u8beq] at hn2; rw [isCont_iff] at ha; simp at hn hn2; omega
      have := IsText.cons (v := (b0.toNat - 0xE0) * 4096 + (b1.toNat - 0x80) * 64 + (b2.toNat - 0x80))
        (by unfold Scalar; omega) (ih hc)
      rwa [utf8Char, if_neg (by omega), if_neg (by omega), if_pos (by omega), u8eq (b := b0) (by omega),
        u8eq (b := b1) (by omega), u8eq (b := b2) (by omega)] at this
    | case7 b0 h0 h1 h2 h3 b1 b2 b3 rest ih =>
      simp only [Bool.and_eq_true, decide_eq_true_eq, u8le, u8lt, isCont_iff] at h h0 h1 h2 h3
      obtain ⟨⟨⟨ha, hb⟩, hb'⟩, hc⟩ := h
      have k1 : (0xF0 : UInt8).toNat = 0xF0 := rfl
      have k2 : (0xF4 : UInt8).toNat = 0xF4 := rfl
      rw [k1, k2] at h3
      have hb1 : 128 ≤ b1.toNat ∧ b1.toNat ≤ 191 ∧ (b0.toNat = 0xF0 → 0x90 ≤ b1.toNat) ∧
          (b0.toNat = 0xF4 → b1.toNat ≤ 0x8F) := by
        split at ha
        · rename_i h; rw [u8beq] at h; simp [u8le] at ha h; omega
        · rename_i hn; rw [u8beq] at hn
          split at ha
          · rename_i h; rw [u8beq] at h; simp [u8le] at ha h; omega
          · rename_i hn2; rw [u8beq] at hn2; rw [isCont_iff] at ha; simp at hn hn2; omega
      have := IsText.cons
        (v := (b0.toNat - 0xF0) * 262144 + (b1.toNat - 0x80) * 4096 + (b2.toNat - 0x80) * 64 + (b3.toNat - 0x80))
        (by unfold Scalar; omega) (ih hc)
      rwa [utf8Char, if_neg (by omega), if_neg (by omega), if_neg (by omega), u8eq (b := b0) (by omega),
        u8eq (b := b1) (by omega), u8eq (b := b2) (by omega), u8eq (b := b3) (by omega)] at this
    | _ => simp at h
  · rintro ⟨vs, hvs, rfl⟩
    induction vs with
    | nil => rfl
    | cons v vs ih =>
      rw [List.flatMap_cons, validUtf8_utf8Char (hvs v (by simp))]
      exact ih fun w hw => hvs w (by simp [hw])

end HttpIo
