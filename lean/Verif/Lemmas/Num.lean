import Verif.Model.Text
import Verif.Spec.Text

/-! Numbers: the model's digit loops against the specification `Numeral`. -/

namespace HttpIo
open Spec

theorem UInt8.forall_iff_fin (P : UInt8 → Prop) : (∀ b, P b) ↔ ∀ i : Fin 256, P (UInt8.ofNat i.val) := by
  constructor
  · intro h i; exact h _
  · intro h b
    have := h ⟨b.toNat, b.toNat_lt⟩
    simpa using this

theorem digitVal_of_toDigit {r : Nat} (hr : r ≤ 36) {b : UInt8} {d : Nat} (h : toDigit r b = some d) :
    DigitVal r b d := by
  unfold toDigit at h
  dsimp only at h
  have hb : b = UInt8.ofNat b.toNat := by simp
  split at h
  · rename_i h1
    simp only [Option.bind_some] at h
    split at h
    · rename_i h2
      simp only [Bool.and_eq_true, decide_eq_true_eq] at h1
      have hd : d = b.toNat - 48 := by simpa using h.symm
      have : b = UInt8.ofNat (48 + d) := by rw [hb]; congr 1; omega
      rw [this]; exact .dec d (by omega) (by omega)
    · simp at h
  · split at h
    · rename_i h0 h1
      simp only [Option.bind_some] at h
      split at h
      · rename_i h2
        simp only [Bool.and_eq_true, decide_eq_true_eq] at h1
        have hd : d = b.toNat - 97 + 10 := by simpa using h.symm
        have : b = UInt8.ofNat (97 + (d - 10)) := by rw [hb]; congr 1; omega
        rw [this]; exact .lower d (by omega) (by omega) (by omega)
      · simp at h
    · split at h
      · rename_i h0 h00 h1
        simp only [Option.bind_some] at h
        split at h
        · rename_i h2
          simp only [Bool.and_eq_true, decide_eq_true_eq] at h1
          have hd : d = b.toNat - 65 + 10 := by simpa using h.symm
          have : b = UInt8.ofNat (65 + (d - 10)) := by rw [hb]; congr 1; omega
          rw [this]; exact .upper d (by omega) (by omega) (by omega)
        · simp at h
      · simp at h

theorem toDigit_of_digitVal {r : Nat} {b : UInt8} {d : Nat} (h : DigitVal r b d) :
    toDigit r b = some d := by
  cases h with
  | dec d h1 h2 =>
    have : (UInt8.ofNat (48 + d)).toNat = 48 + d := by simp; omega
    unfold toDigit; simp only [this]
    have e : (decide (48 ≤ 48 + d) && decide (48 + d ≤ 57)) = true := by simp; omega
    have e2 : 48 + d - 48 = d := by omega
    simp only [e, if_true, e2, Option.bind_some, h2]
  | lower d h1 h2 h3 =>
    have : (UInt8.ofNat (97 + (d - 10))).toNat = 97 + (d - 10) := by simp; omega
    unfold toDigit; simp only [this]
    have e0 : (decide (48 ≤ 97 + (d - 10)) && decide (97 + (d - 10) ≤ 57)) = false := by simp; omega
    have e : (decide (97 ≤ 97 + (d - 10)) && decide (97 + (d - 10) ≤ 122)) = true := by simp; omega
    have e2 : 97 + (d - 10) - 97 + 10 = d := by omega
    simp only [e0, e]
    simp only [Bool.false_eq_true, if_false, if_true, e2, Option.bind_some, h3]
  | upper d h1 h2 h3 =>
    have : (UInt8.ofNat (65 + (d - 10))).toNat = 65 + (d - 10) := by simp; omega
    unfold toDigit; simp only [this]
    have e0 : (decide (48 ≤ 65 + (d - 10)) && decide (65 + (d - 10) ≤ 57)) = false := by simp; omega
    have e1 : (decide (97 ≤ 65 + (d - 10)) && decide (65 + (d - 10) ≤ 122)) = false := by simp; omega
    have e : (decide (65 ≤ 65 + (d - 10)) && decide (65 + (d - 10) ≤ 90)) = true := by simp; omega
    have e2 : 65 + (d - 10) - 65 + 10 = d := by omega
    simp only [e0, e1, e]
    simp only [Bool.false_eq_true, if_false, if_true, e2, Option.bind_some, h3]

theorem toDigit_iff {r : Nat} (hr : r ≤ 36) {b : UInt8} {d : Nat} :
    toDigit r b = some d ↔ DigitVal r b d :=
  ⟨digitVal_of_toDigit hr, toDigit_of_digitVal⟩

/-- Digits continuing from an accumulator. -/
inductive NumeralFrom (r : Nat) : Nat → Bytes → Nat → Prop
  | nil (acc : Nat) : NumeralFrom r acc [] acc
  | cons {acc n : Nat} {b : UInt8} {d : Nat} {bs : Bytes} :
      DigitVal r b d → NumeralFrom r (acc * r + d) bs n → NumeralFrom r acc (b :: bs) n

theorem NumeralFrom.append {r acc m n : Nat} {xs ys : Bytes} (h1 : NumeralFrom r acc xs m)
    (h2 : NumeralFrom r m ys n) : NumeralFrom r acc (xs ++ ys) n := by
  induction h1 with
  | nil => exact h2
  | cons hd _ ih => exact .cons hd (ih h2)

theorem Spec.Numeral.ne_nil {r n : Nat} {ds : Bytes} (h : Numeral r ds n) : ds ≠ [] := by
  cases h <;> simp

theorem Spec.Numeral.toFrom {r n : Nat} {ds : Bytes} (h : Numeral r ds n) : NumeralFrom r 0 ds n := by
  induction h with
  | one hd => exact .cons hd (by simpa using .nil _)
  | snoc _ hd ih => exact ih.append (.cons hd (.nil _))

theorem NumeralFrom.toNumeral {r acc n : Nat} {ds xs : Bytes} (h : NumeralFrom r acc ds n)
    (hx : Numeral r xs acc) : Numeral r (xs ++ ds) n := by
  induction h generalizing xs with
  | nil => simpa using hx
  | cons hd _ ih => simpa using ih (hx.snoc hd)

theorem numeral_iff_from {r n : Nat} {ds : Bytes} :
    Numeral r ds n ↔ ds ≠ [] ∧ NumeralFrom r 0 ds n := by
  constructor
  · intro h; exact ⟨h.ne_nil, h.toFrom⟩
  · rintro ⟨h, hf⟩
    cases hf with
    | nil => exact absurd rfl h
    | cons hd hf => exact hf.toNumeral (by simpa using Numeral.one hd)

theorem NumeralFrom.le {r acc n : Nat} {ds : Bytes} (hr : 1 ≤ r) (h : NumeralFrom r acc ds n) :
    acc ≤ n := by
  induction h with
  | nil => exact Nat.le_refl _
  | cons _ _ ih =>
    rename_i acc _ _ _ _ _ _
    have : acc ≤ acc * r := Nat.le_mul_of_pos_right _ hr
    omega

theorem NumeralFrom.unique {r acc n m : Nat} {ds : Bytes}
    (h : NumeralFrom r acc ds n) (h' : NumeralFrom r acc ds m) : n = m := by
  induction h with
  | nil => cases h'; rfl
  | cons hd _ ih =>
    cases h' with
    | cons hd' hf' =>
      have : some _ = some _ := (toDigit_of_digitVal hd).symm.trans (toDigit_of_digitVal hd')
      cases this
      exact ih hf'

theorem digitLoop_iff {r max acc n : Nat} {bs : Bytes} (hr1 : 1 ≤ r) (hr : r ≤ 36) (hacc : acc ≤ max) :
    digitLoop r max acc bs = some n ↔ NumeralFrom r acc bs n ∧ n ≤ max := by
  induction bs generalizing acc with
  | nil =>
    simp only [digitLoop, Option.some.injEq]
    constructor
    · rintro rfl; exact ⟨.nil _, hacc⟩
    · rintro ⟨h, -⟩; cases h; rfl
  | cons b bs ih =>
    unfold digitLoop
    split
    · rename_i hd
      constructor
      · intro h; simp at h
      · rintro ⟨h, -⟩
        cases h with
        | cons hd' _ => rw [toDigit_of_digitVal hd'] at hd; simp at hd
    · rename_i d hd
      have hdv := digitVal_of_toDigit hr hd
      by_cases h1 : acc * r + d ≤ max
      · have h0 : acc * r ≤ max := by omega
        simp only [h0, h1, if_true]
        rw [ih h1]
        constructor
        · rintro ⟨h, hm⟩; exact ⟨.cons hdv h, hm⟩
        · rintro ⟨h, hm⟩
          refine ⟨?_, hm⟩
          cases h with
          | cons hd' hf =>
            have : some _ = some _ := (toDigit_of_digitVal hd').symm.trans hd
            cases this; exact hf
      · have hno : ¬ (NumeralFrom r acc (b :: bs) n ∧ n ≤ max) := by
          rintro ⟨h, hm⟩
          cases h with
          | cons hd' hf =>
            have : some _ = some _ := (toDigit_of_digitVal hd').symm.trans hd
            cases this
            have := hf.le hr1
            omega
        constructor
        · intro h
          split at h <;> simp at h
        · intro h; exact absurd h hno

theorem not_digit_plus {r d : Nat} : ¬ DigitVal r 0x2B d := by
  intro h
  have := toDigit_of_digitVal h
  simp [toDigit] at this

theorem not_digit_minus {r d : Nat} : ¬ DigitVal r 0x2D d := by
  intro h
  have := toDigit_of_digitVal h
  simp [toDigit] at this

/-- `from_str_radix` accepts exactly the unsigned numerals in range, with their value. -/
theorem fromStrRadix_iff {r max n : Nat} {t : Bytes} (hr1 : 1 ≤ r) (hr : r ≤ 36) :
    fromStrRadix r max t = some n ↔ UnsignedText r t n ∧ n ≤ max := by
  have key : ∀ ds : Bytes, ds ≠ [] → (digitLoop r max 0 ds = some n ↔ Numeral r ds n ∧ n ≤ max) := by
    intro ds hds
    rw [digitLoop_iff hr1 hr (Nat.zero_le _), numeral_iff_from]
    simp [hds]
  match t with
  | [] =>
    simp only [fromStrRadix, UnsignedText]
    constructor
    · intro h; simp at h
    · rintro ⟨h | ⟨ds, h, _⟩, _⟩
      · exact absurd rfl h.ne_nil
      · simp at h
  | [b] =>
    simp only [fromStrRadix, UnsignedText]
    split
    · rename_i hb
      constructor
      · intro h; simp at h
      · rintro ⟨h | ⟨ds, h, hn⟩, _⟩
        · have hf := h.toFrom
          cases hf with
          | cons hd _ =>
            simp only [Bool.or_eq_true, beq_iff_eq] at hb
            rcases hb with rfl | rfl
            · exact absurd hd not_digit_plus
            · exact absurd hd not_digit_minus
        · simp only [List.cons.injEq] at h
          exact absurd h.2.symm hn.ne_nil
    · rename_i hb
      rw [key [b] (by simp)]
      constructor
      · rintro ⟨h, hm⟩; exact ⟨.inl h, hm⟩
      · rintro ⟨h | ⟨ds, h, hn⟩, hm⟩
        · exact ⟨h, hm⟩
        · simp only [List.cons.injEq] at h
          exact absurd h.2.symm hn.ne_nil
  | b :: b' :: bs =>
    simp only [fromStrRadix, UnsignedText]
    split
    · rename_i hb
      simp only [beq_iff_eq] at hb
      subst hb
      rw [key _ (by simp)]
      constructor
      · rintro ⟨h, hm⟩; exact ⟨.inr ⟨_, rfl, h⟩, hm⟩
      · rintro ⟨h | ⟨ds, h, hn⟩, hm⟩
        · have hf := h.toFrom
          cases hf with
          | cons hd _ => exact absurd hd not_digit_plus
        · simp only [List.cons.injEq, true_and] at h
          exact ⟨h ▸ hn, hm⟩
    · rename_i hb
      rw [key _ (by simp)]
      constructor
      · rintro ⟨h, hm⟩; exact ⟨.inl h, hm⟩
      · rintro ⟨h | ⟨ds, h, hn⟩, hm⟩
        · exact ⟨h, hm⟩
        · simp only [List.cons.injEq] at h
          simp [h.1] at hb

theorem digitVal_digitChar {r d : Nat} (hr : r ≤ 16) (hd : d < r) : DigitVal r (digitChar d) d := by
  unfold digitChar
  split
  · rename_i h; exact .dec d h hd
  · rename_i h
    have : 87 + d = 97 + (d - 10) := by omega
    rw [this]; exact .lower d (by omega) (by omega) hd

theorem numeral_toRadix (k n : Nat) (hk : k + 2 ≤ 16) : Numeral (k + 2) (toRadix k n) n := by
  induction n using Nat.strongRecOn with
  | ind n ih =>
    unfold toRadix
    split
    · rename_i h; exact .one (digitVal_digitChar hk h)
    · rename_i h
      have hlt : n / (k + 2) < n := Nat.div_lt_self (by omega) (by omega)
      have := (ih _ hlt).snoc (digitVal_digitChar hk (Nat.mod_lt n (by omega)))
      rwa [Nat.div_add_mod'] at this

theorem numeral_showDec (n : Nat) : Numeral 10 (showDec n) n := numeral_toRadix 8 n (by omega)
theorem numeral_showHex (n : Nat) : Numeral 16 (showHex n) n := numeral_toRadix 14 n (by omega)

theorem fromStrRadix_showDec {n max : Nat} (h : n ≤ max) : fromStrRadix 10 max (showDec n) = some n :=
  (fromStrRadix_iff (by omega) (by omega)).2 ⟨.inl (numeral_showDec n), h⟩

theorem fromStrRadix_showHex {n max : Nat} (h : n ≤ max) : fromStrRadix 16 max (showHex n) = some n :=
  (fromStrRadix_iff (by omega) (by omega)).2 ⟨.inl (numeral_showHex n), h⟩

/-- Numerals are plain ASCII digits and letters. -/
theorem Spec.DigitVal.range {r : Nat} {b : UInt8} {d : Nat} (h : DigitVal r b d) :
    (48 ≤ b.toNat ∧ b.toNat ≤ 57) ∨ (97 ≤ b.toNat ∧ b.toNat ≤ 122) ∨ (65 ≤ b.toNat ∧ b.toNat ≤ 90) := by
  cases h with
  | dec d h1 h2 => left; simp; omega
  | lower d h1 h2 h3 => right; left; simp; omega
  | upper d h1 h2 h3 => right; right; simp; omega

theorem NumeralFrom.digits {r acc n : Nat} {ds : Bytes} (h : NumeralFrom r acc ds n) :
    ∀ b ∈ ds, ∃ d, DigitVal r b d := by
  induction h with
  | nil => simp
  | cons hd _ ih =>
    intro b hb
    rcases List.mem_cons.1 hb with rfl | hb
    · exact ⟨_, hd⟩
    · exact ih b hb

theorem Spec.Numeral.digits {r n : Nat} {ds : Bytes} (h : Numeral r ds n) : ∀ b ∈ ds, ∃ d, DigitVal r b d :=
  h.toFrom.digits

end HttpIo
