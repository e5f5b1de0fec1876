import Verif.Model.Text
import Verif.Spec.Text
import Verif.Lemmas.Num

/-! ASCII case mapping and "equal up to ASCII case". -/

namespace HttpIo
open Spec

theorem asciiUpper_sameLetter (a b : UInt8) (ha : a.toNat < 128) (hb : b.toNat < 128) :
    SameLetter a b ↔ asciiUpperByte a = asciiUpperByte b := by
  have hcase : ∀ a : UInt8, asciiUpperByte a =
      if 97 ≤ a.toNat ∧ a.toNat ≤ 122 then UInt8.ofNat (a.toNat - 32) else a := by
    rw [UInt8.forall_iff_fin]; decide +kernel
  have hinj : ∀ x y : UInt8, x = y ↔ x.toNat = y.toNat := fun x y => UInt8.toNat_inj.symm
  have key : SameLetter a b ↔ (a.toNat = b.toNat ∨ (65 ≤ a.toNat ∧ a.toNat ≤ 90 ∧ b.toNat = a.toNat + 32) ∨
      (65 ≤ b.toNat ∧ b.toNat ≤ 90 ∧ a.toNat = b.toNat + 32)) := by
    unfold SameLetter
    constructor
    · rintro (h | ⟨k, hk, rfl, rfl⟩ | ⟨k, hk, rfl, rfl⟩)
      · left; rw [h]
      · right; left; simp; omega
      · right; right; simp; omega
    · rintro (h | ⟨h1, h2, h3⟩ | ⟨h1, h2, h3⟩)
      · left; exact UInt8.toNat_inj.1 h
      · right; left
        refine ⟨a.toNat - 65, by omega, ?_, ?_⟩ <;> (apply UInt8.toNat_inj.1; simp; omega)
      · right; right
        refine ⟨b.toNat - 65, by omega, ?_, ?_⟩ <;> (apply UInt8.toNat_inj.1; simp; omega)
  rw [key, hcase a, hcase b]
  split <;> split <;> rw [hinj] <;> simp <;> omega

theorem sameText_iff_upper {s t : Bytes} (hs : AsciiText s) (ht : AsciiText t) :
    SameText s t ↔ s.map asciiUpperByte = t.map asciiUpperByte := by
  induction s generalizing t with
  | nil =>
    cases t with
    | nil => simp [SameText.nil]
    | cons b t =>
      constructor
      · intro h; cases h
      · intro h; simp at h
  | cons a s ih =>
    cases t with
    | nil =>
      constructor
      · intro h; cases h
      · intro h; simp at h
    | cons b t =>
      have ha := hs a (by simp)
      have hb := ht b (by simp)
      have ih' := ih (t := t) (fun x hx => hs x (by simp [hx])) (fun x hx => ht x (by simp [hx]))
      simp only [List.map_cons, List.cons.injEq]
      rw [← ih', ← asciiUpper_sameLetter a b ha hb]
      constructor
      · intro h; cases h with | cons h1 h2 => exact ⟨h1, h2⟩
      · rintro ⟨h1, h2⟩; exact .cons h1 h2

theorem isAscii_iff (s : Bytes) : isAscii s = true ↔ AsciiText s := by
  simp only [isAscii, List.all_eq_true, decide_eq_true_eq, UInt8.lt_iff_toNat_lt, AsciiText]
  rfl

theorem asciiLower_sameLetter (a b : UInt8) (ha : a.toNat < 128) (hb : b.toNat < 128) :
    SameLetter a b ↔ asciiLowerByte a = asciiLowerByte b := by
  have hcase : ∀ a : UInt8, asciiLowerByte a =
      if 65 ≤ a.toNat ∧ a.toNat ≤ 90 then UInt8.ofNat (a.toNat + 32) else a := by
    rw [UInt8.forall_iff_fin]; decide +kernel
  have hinj : ∀ x y : UInt8, x = y ↔ x.toNat = y.toNat := fun x y => UInt8.toNat_inj.symm
  have key : SameLetter a b ↔ (a.toNat = b.toNat ∨ (65 ≤ a.toNat ∧ a.toNat ≤ 90 ∧ b.toNat = a.toNat + 32) ∨
      (65 ≤ b.toNat ∧ b.toNat ≤ 90 ∧ a.toNat = b.toNat + 32)) := by
    unfold SameLetter
    constructor
    · rintro (h | ⟨k, hk, rfl, rfl⟩ | ⟨k, hk, rfl, rfl⟩)
      · left; rw [h]
      · right; left; simp; omega
      · right; right; simp; omega
    · rintro (h | ⟨h1, h2, h3⟩ | ⟨h1, h2, h3⟩)
      · left; exact UInt8.toNat_inj.1 h
      · right; left
        refine ⟨a.toNat - 65, by omega, ?_, ?_⟩ <;> (apply UInt8.toNat_inj.1; simp; omega)
      · right; right
        refine ⟨b.toNat - 65, by omega, ?_, ?_⟩ <;> (apply UInt8.toNat_inj.1; simp; omega)
  rw [key, hcase a, hcase b]
  split <;> split <;> rw [hinj] <;> simp <;> omega

theorem sameText_iff_lower {s t : Bytes} (hs : AsciiText s) (ht : AsciiText t) :
    SameText s t ↔ s.map asciiLowerByte = t.map asciiLowerByte := by
  induction s generalizing t with
  | nil =>
    cases t with
    | nil => simp [SameText.nil]
    | cons b t =>
      constructor
      · intro h; cases h
      · intro h; simp at h
  | cons a s ih =>
    cases t with
    | nil =>
      constructor
      · intro h; cases h
      · intro h; simp at h
    | cons b t =>
      have ha := hs a (by simp)
      have hb := ht b (by simp)
      have ih' := ih (t := t) (fun x hx => hs x (by simp [hx])) (fun x hx => ht x (by simp [hx]))
      simp only [List.map_cons, List.cons.injEq]
      rw [← ih', ← asciiLower_sameLetter a b ha hb]
      constructor
      · intro h; cases h with | cons h1 h2 => exact ⟨h1, h2⟩
      · rintro ⟨h1, h2⟩; exact .cons h1 h2


theorem lower_eq_iff [CaseMap] {s t : Bytes} (hs : AsciiText s) (ht : AsciiText t) :
    CaseMap.lower s = CaseMap.lower t ↔ SameText s t := by
  rw [CaseMap.lower_ascii s ((isAscii_iff s).2 hs), CaseMap.lower_ascii t ((isAscii_iff t).2 ht),
    sameText_iff_lower hs ht]

/-- ASCII-only case mapping is an instance (used in examples). -/
@[reducible] def asciiCase : CaseMap where
  lower s := s.map asciiLowerByte
  upper s := s.map asciiUpperByte
  lower_ascii _ _ := rfl
  upper_ascii _ _ := rfl
  lower_idem s := by
    rw [List.map_map]
    apply List.map_congr_left
    intro b _
    have : ∀ b : UInt8, asciiLowerByte (asciiLowerByte b) = asciiLowerByte b := by
      rw [UInt8.forall_iff_fin]; decide +kernel
    exact this b

end HttpIo
