import Verif.Lemmas.Case
import Verif.Lemmas.Grammar
import Verif.Spec.Unicode

/-! Names spelled with characters outside ASCII, and a case mapping that is Unicode's as far as the specification goes. -/

namespace HttpIo
open Spec

theorem utf8Char_ascii {v : Nat} (h : v < 128) : utf8Char v = [UInt8.ofNat v] := by
  unfold utf8Char; rw [if_pos h]

theorem asciiText_append {a b : Bytes} : AsciiText (a ++ b) ↔ AsciiText a ∧ AsciiText b := by
  unfold AsciiText
  constructor
  · intro h
    exact ⟨fun x hx => h x (by simp [hx]), fun x hx => h x (by simp [hx])⟩
  · rintro ⟨h1, h2⟩ x hx
    exact (List.mem_append.1 hx).elim (h1 x) (h2 x)

theorem asciiText_one {v : Nat} (h : v < 128) : isAscii [UInt8.ofNat v] = true := by
  rw [isAscii_iff]
  intro b hb
  rw [List.mem_singleton] at hb
  subst hb
  rw [u8ofNat (by omega)]; exact h

theorem flatMap_one (f : Nat → Bytes) (v : Nat) : [v].flatMap f = f v := by simp

section
variable [CaseMap] {up low : Nat → Bytes} (hu : UnicodeCase up low)
include hu

theorem up_below {v : Nat} (h : v < 128) : up v = [asciiUpperByte (UInt8.ofNat v)] := by
  have h1 := hu.upper_text [v] (by intro x hx; rw [List.mem_singleton] at hx; subst hx; exact .inl (by omega))
  rw [flatMap_one, flatMap_one, utf8Char_ascii h, CaseMap.upper_ascii _ (asciiText_one h)] at h1
  rw [← h1]; rfl

theorem low_below {v : Nat} (h : v < 128) : low v = [asciiLowerByte (UInt8.ofNat v)] := by
  have h1 := hu.lower_text [v] (by intro x hx; rw [List.mem_singleton] at hx; subst hx; exact .inl (by omega))
    (by simp; omega)
  rw [flatMap_one, flatMap_one, utf8Char_ascii h, CaseMap.lower_ascii _ (asciiText_one h)] at h1
  rw [← h1]; rfl

end

theorem asciiUpperByte_same {a : UInt8} (h : a.toNat < 128) : SameLetter a (asciiUpperByte a) := by
  have hk : ∀ a : UInt8, a.toNat < 128 →
      (asciiUpperByte a).toNat < 128 ∧ asciiUpperByte (asciiUpperByte a) = asciiUpperByte a := by
    rw [UInt8.forall_iff_fin]; decide +kernel
  rw [asciiUpper_sameLetter _ _ h (hk a h).1, (hk a h).2]

theorem asciiLowerByte_same {a : UInt8} (h : a.toNat < 128) : SameLetter a (asciiLowerByte a) := by
  have hk : ∀ a : UInt8, a.toNat < 128 →
      (asciiLowerByte a).toNat < 128 ∧ asciiLowerByte (asciiLowerByte a) = asciiLowerByte a := by
    rw [UInt8.forall_iff_fin]; decide +kernel
  rw [asciiLower_sameLetter _ _ h (hk a h).1, (hk a h).2]

theorem sameLetter_ascii {a b : UInt8} (h : SameLetter a b) : a.toNat < 128 ↔ b.toNat < 128 := by
  rcases h with rfl | ⟨k, hk, rfl, rfl⟩ | ⟨k, hk, rfl, rfl⟩
  · exact Iff.rfl
  · rw [u8ofNat (by omega), u8ofNat (by omega)]; omega
  · rw [u8ofNat (by omega), u8ofNat (by omega)]; omega

theorem sameLetter_symm {a b : UInt8} (h : SameLetter a b) : SameLetter b a := by
  rcases h with rfl | ⟨k, hk, h1, h2⟩ | ⟨k, hk, h1, h2⟩
  · exact .inl rfl
  · exact .inr (.inr ⟨k, hk, h1, h2⟩)
  · exact .inr (.inl ⟨k, hk, h1, h2⟩)

theorem sameLetter_trans {a b d : UInt8} (hd : d.toNat < 128) (h1 : SameLetter a b) (h2 : SameLetter b d) : SameLetter a d := by
  have hb := (sameLetter_ascii h2).2 hd
  have ha := (sameLetter_ascii h1).2 hb
  rw [asciiLower_sameLetter _ _ ha hb] at h1
  rw [asciiLower_sameLetter _ _ hb hd] at h2
  rw [asciiLower_sameLetter _ _ ha hd, h1, h2]

theorem upperSpelling_of [CaseMap] {up low : Nat → Bytes} (hu : UnicodeCase up low) :
    ∀ {vs : List Nat}, (∀ v ∈ vs, Scalar v) → AsciiText (vs.flatMap up) →
      UpperSpelling (vs.flatMap utf8Char) (vs.flatMap up) := by
  intro vs
  induction vs with
  | nil => intro _ _; exact .nil
  | cons v vs ih =>
    intro hv ha
    simp only [List.flatMap_cons] at ha ⊢
    obtain ⟨a1, a2⟩ := asciiText_append.1 ha
    have ih := ih (fun x hx => hv x (by simp [hx])) a2
    by_cases h : v < 128
    · rw [up_below hu h, utf8Char_ascii h]
      exact .letter (asciiUpperByte_same (by rw [u8ofNat (by omega)]; exact h)) ih
    · exact .special (hu.up_other v (hv v (by simp)) (by omega) a1) ih

theorem asciiUppers_facts : ∀ p ∈ asciiUppers, Scalar p.1 ∧ 128 ≤ p.1 ∧ AsciiText p.2 ∧ p.2.map asciiUpperByte = p.2 := by
  unfold Scalar AsciiText asciiUppers
  decide +kernel

/-- What is spelled is text, and its upper case is what it spells. -/
theorem upper_of_spelling [CaseMap] {up low : Nat → Bytes} (hu : UnicodeCase up low) {s t : Bytes} (h : UpperSpelling s t)
    (ha : AsciiText t) (hc : t.map asciiUpperByte = t) :
    ∃ vs : List Nat, (∀ v ∈ vs, Scalar v) ∧ s = vs.flatMap utf8Char ∧ vs.flatMap up = t := by
  induction h with
  | nil => exact ⟨[], by simp, rfl, rfl⟩
  | @letter a b s t hl _ ih =>
    rw [List.map_cons, List.cons.injEq] at hc
    obtain ⟨vs, h1, h2, h3⟩ := ih (fun x hx => ha x (by simp [hx])) hc.2
    have hb := ha b (by simp)
    have haa := (sameLetter_ascii hl).2 hb
    have e := (asciiUpper_sameLetter _ _ haa hb).1 hl
    refine ⟨a.toNat :: vs, ?_, ?_, ?_⟩
    · intro v hv
      rcases List.mem_cons.1 hv with rfl | hv
      · exact .inl (by omega)
      · exact h1 v hv
    · rw [List.flatMap_cons, utf8Char_ascii haa, u8eq rfl, h2]; rfl
    · rw [List.flatMap_cons, up_below hu haa, u8eq rfl, h3, e, hc.1]; rfl
  | @special v w s t hm _ ih =>
    obtain ⟨f1, f2, f3, f4⟩ := asciiUppers_facts _ hm
    rw [List.map_append] at hc
    have hl : (w.map asciiUpperByte).length = w.length := by simp
    obtain ⟨vs, h1, h2, h3⟩ := ih (asciiText_append.1 ha).2 (List.append_inj hc hl).2
    refine ⟨v :: vs, ?_, ?_, ?_⟩
    · intro x hx
      rcases List.mem_cons.1 hx with rfl | hx
      · exact f1
      · exact h1 x hx
    · rw [List.flatMap_cons, h2]
    · rw [List.flatMap_cons, h3, hu.up_table _ hm]

theorem upper_eq_iff [CaseMap] {up low : Nat → Bytes} (hu : UnicodeCase up low) {s t : Bytes} (hs : IsText s)
    (ha : AsciiText t) (hc : t.map asciiUpperByte = t) : CaseMap.upper s = t ↔ UpperSpelling s t := by
  constructor
  · intro h
    obtain ⟨vs, h1, rfl⟩ := hs
    rw [hu.upper_text vs h1] at h
    subst h
    exact upperSpelling_of hu h1 ha
  · intro h
    obtain ⟨vs, h1, h2, h3⟩ := upper_of_spelling hu h ha hc
    rw [h2, hu.upper_text vs h1, h3]

/-- A name without S, I and F has no spellings but those in ASCII. -/
theorem upperSpelling_plain {s t : Bytes} (hn : (83 : UInt8) ∉ t ∧ (73 : UInt8) ∉ t ∧ (70 : UInt8) ∉ t) :
    UpperSpelling s t ↔ SameText s t := by
  constructor
  · intro h
    induction h with
    | nil => exact .nil
    | letter hl _ ih =>
      simp only [List.mem_cons, not_or] at hn
      exact .cons hl (ih ⟨hn.1.2, hn.2.1.2, hn.2.2.2⟩)
    | @special v w s t hm _ _ =>
      have : ∀ p ∈ asciiUppers, (83 : UInt8) ∈ p.2 ∨ (73 : UInt8) ∈ p.2 ∨ (70 : UInt8) ∈ p.2 := by
        unfold asciiUppers; decide +kernel
      have := this _ hm
      simp only [List.mem_append, not_or] at hn
      rcases this with h | h | h
      · exact absurd h hn.1.1
      · exact absurd h hn.2.1.1
      · exact absurd h hn.2.2.1
  · intro h
    induction h with
    | nil => exact .nil
    | cons hl _ ih =>
      simp only [List.mem_cons, not_or] at hn
      exact .letter hl (ih ⟨hn.1.2, hn.2.1.2, hn.2.2.2⟩)

/-! ### Lower case -/

theorem lowerSpelling_of [CaseMap] {up low : Nat → Bytes} (hu : UnicodeCase up low) :
    ∀ {vs : List Nat}, (∀ v ∈ vs, Scalar v) → AsciiText (vs.flatMap low) →
      LowerSpelling (vs.flatMap utf8Char) (vs.flatMap low) := by
  intro vs
  induction vs with
  | nil => intro _ _; exact .nil
  | cons v vs ih =>
    intro hv ha
    simp only [List.flatMap_cons] at ha ⊢
    obtain ⟨a1, a2⟩ := asciiText_append.1 ha
    have ih := ih (fun x hx => hv x (by simp [hx])) a2
    by_cases h : v < 128
    · rw [low_below hu h, utf8Char_ascii h]
      exact .letter (asciiLowerByte_same (by rw [u8ofNat (by omega)]; exact h)) ih
    · have hv := hu.low_other v (hv v (by simp)) (by omega) a1
      subst hv
      have hk : utf8 "k" = [107] := by decide +kernel
      rw [hu.low_kelvin, hk]
      exact .kelvin (.inl rfl) ih

theorem lower_of_spelling [CaseMap] {up low : Nat → Bytes} (hu : UnicodeCase up low) {s t : Bytes} (h : LowerSpelling s t)
    (ha : AsciiText t) :
    ∃ vs : List Nat, (∀ v ∈ vs, Scalar v) ∧ 0x3A3 ∉ vs ∧ s = vs.flatMap utf8Char ∧ vs.flatMap low = t.map asciiLowerByte := by
  induction h with
  | nil => exact ⟨[], by simp, by simp, rfl, rfl⟩
  | @letter a b s t hl _ ih =>
    obtain ⟨vs, h1, h0, h2, h3⟩ := ih (fun x hx => ha x (by simp [hx]))
    have hb := ha b (by simp)
    have haa := (sameLetter_ascii hl).2 hb
    have e := (asciiLower_sameLetter _ _ haa hb).1 hl
    refine ⟨a.toNat :: vs, ?_, ?_, ?_, ?_⟩
    · intro v hv
      rcases List.mem_cons.1 hv with rfl | hv
      · exact .inl (by omega)
      · exact h1 v hv
    · simp only [List.mem_cons, not_or]; exact ⟨by omega, h0⟩
    · rw [List.flatMap_cons, utf8Char_ascii haa, u8eq rfl, h2]; rfl
    · rw [List.flatMap_cons, low_below hu haa, u8eq rfl, h3, e]; rfl
  | @kelvin b s t hl _ ih =>
    obtain ⟨vs, h1, h0, h2, h3⟩ := ih (fun x hx => ha x (by simp [hx]))
    have e := (asciiLower_sameLetter _ _ (ha b (by simp)) (by decide)).1 hl
    refine ⟨0x212A :: vs, ?_, ?_, ?_, ?_⟩
    · intro v hv
      rcases List.mem_cons.1 hv with rfl | hv
      · exact .inl (by omega)
      · exact h1 v hv
    · simp only [List.mem_cons, not_or]; exact ⟨by omega, h0⟩
    · rw [List.flatMap_cons, h2]
    · rw [List.flatMap_cons, hu.low_kelvin, h3, List.map_cons, e]
      have : utf8 "k" = [asciiLowerByte 107] := by decide +kernel
      rw [this]; rfl

theorem lowerSpelling_same {s t t' : Bytes} (h : LowerSpelling s t) (ha' : AsciiText t') (hs : SameText t t') :
    LowerSpelling s t' := by
  induction h generalizing t' with
  | nil => cases hs; exact .nil
  | letter hl _ ih =>
    cases hs with
    | cons h1 h2 =>
      exact .letter (sameLetter_trans (ha' _ (by simp)) hl h1) (ih (fun x hx => ha' x (by simp [hx])) h2)
  | kelvin hl _ ih =>
    cases hs with
    | cons h1 h2 =>
      exact .kelvin (sameLetter_trans (by decide) (sameLetter_symm h1) hl) (ih (fun x hx => ha' x (by simp [hx])) h2)

theorem lower_spelled_iff [CaseMap] {up low : Nat → Bytes} (hu : UnicodeCase up low) {s t : Bytes} (hs : IsText s)
    (ha : AsciiText t) : CaseMap.lower s = CaseMap.lower t ↔ LowerSpelling s t := by
  have hm : AsciiText (t.map asciiLowerByte) := by
    intro x hx
    obtain ⟨b, hb, rfl⟩ := List.mem_map.1 hx
    exact (sameLetter_ascii (asciiLowerByte_same (ha b hb))).1 (ha b hb)
  rw [CaseMap.lower_ascii t ((isAscii_iff t).2 ha)]
  constructor
  · intro h
    obtain ⟨vs, h1, rfl⟩ := hs
    by_cases h0 : 0x3A3 ∈ vs
    · exact absurd (h ▸ hm) (hu.lower_sigma vs h1 h0)
    · rw [hu.lower_text vs h1 h0] at h
      have := lowerSpelling_of hu h1 (h ▸ hm)
      rw [h] at this
      refine lowerSpelling_same this ha ?_
      rw [sameText_iff_lower hm ha, List.map_map]
      apply List.map_congr_left
      intro b _
      have : ∀ b : UInt8, asciiLowerByte (asciiLowerByte b) = asciiLowerByte b := by
        rw [UInt8.forall_iff_fin]; decide +kernel
      exact this b
  · intro h
    obtain ⟨vs, h1, h0, h2, h3⟩ := lower_of_spelling hu h ha
    rw [h2, hu.lower_text vs h1 h0, h3]

/-- A name without k has no spellings but those in ASCII. -/
theorem lowerSpelling_plain {s t : Bytes} (hn : (107 : UInt8) ∉ t ∧ (75 : UInt8) ∉ t) :
    LowerSpelling s t ↔ SameText s t := by
  constructor
  · intro h
    induction h with
    | nil => exact .nil
    | letter hl _ ih =>
      simp only [List.mem_cons, not_or] at hn
      exact .cons hl (ih ⟨hn.1.2, hn.2.2⟩)
    | @kelvin b s t hl _ _ =>
      simp only [List.mem_cons, not_or] at hn
      rw [asciiLower_sameLetter b 107 ((sameLetter_ascii hl).2 (by decide)) (by decide)] at hl
      have : ∀ b : UInt8, asciiLowerByte b = asciiLowerByte 107 → b = 107 ∨ b = 75 := by
        rw [UInt8.forall_iff_fin]; decide +kernel
      rcases this b hl with rfl | rfl
      · exact absurd rfl hn.1.1
      · exact absurd rfl hn.2.1
  · intro h
    induction h with
    | nil => exact .nil
    | cons hl _ ih =>
      simp only [List.mem_cons, not_or] at hn
      exact .letter hl (ih ⟨hn.1.2, hn.2.2⟩)

/-! ### A case mapping that meets the specification -/

/-- The length of a character, by its first byte. -/
def charLen (b : UInt8) : Nat := if b < 0x80 then 1 else if b < 0xE0 then 2 else if b < 0xF0 then 3 else 4

/-- The characters of a text (with fuel). -/
def pieces : Nat → Bytes → List Bytes
  | 0, _ => []
  | _ + 1, [] => []
  | n + 1, b :: r => (b :: r).take (charLen b) :: pieces n ((b :: r).drop (charLen b))

def upPiece (p : Bytes) : Bytes :=
  match asciiUppers.find? fun q => utf8Char q.1 == p with
  | some q => q.2
  | none => p.map asciiUpperByte

def lowPiece (p : Bytes) : Bytes := if p = utf8Char 0x212A then [107] else p.map asciiLowerByte

theorem pieces_nil (n : Nat) : pieces n [] = [] := by cases n <;> rfl

theorem pieces_full {n : Nat} {b : UInt8} {p r : Bytes} (h : (b :: p).length = charLen b) :
    pieces (n + 1) (b :: p ++ r) = (b :: p) :: pieces n r := by
  show ((b :: (p ++ r)).take (charLen b)) :: pieces n ((b :: (p ++ r)).drop (charLen b)) = _
  rw [← h, ← List.cons_append, List.take_left, List.drop_left]

theorem pieces_last {n : Nat} {b : UInt8} {p : Bytes} (h : (b :: p).length ≤ charLen b) :
    pieces (n + 1) (b :: p) = [b :: p] := by
  show ((b :: p).take (charLen b)) :: pieces n ((b :: p).drop (charLen b)) = _
  rw [List.take_of_length_le h, List.drop_of_length_le h, pieces_nil]

theorem charLen_pos (b : UInt8) : 0 < charLen b := by
  unfold charLen; repeat' split
  all_goals omega

theorem utf8Char_shape {v : Nat} (hv : Scalar v) : ∃ b p, utf8Char v = b :: p ∧ (b :: p).length = charLen b := by
  unfold Scalar at hv
  unfold utf8Char charLen
  split
  · refine ⟨_, _, rfl, ?_⟩
    rw [if_pos (by rw [u8lt, u8ofNat (by omega)]; simp; omega)]; rfl
  · split
    · refine ⟨_, _, rfl, ?_⟩
      rw [if_neg (by rw [u8lt, u8ofNat (by omega)]; simp; omega), if_pos (by rw [u8lt, u8ofNat (by omega)]; simp; omega)]
      rfl
    · split
      · refine ⟨_, _, rfl, ?_⟩
        rw [if_neg (by rw [u8lt, u8ofNat (by omega)]; first | (simp; done) | (simp; omega)), if_neg (by rw [u8lt, u8ofNat (by omega)]; first | (simp; done) | (simp; omega)),
          if_pos (by rw [u8lt, u8ofNat (by omega)]; simp; omega)]
        rfl
      · refine ⟨_, _, rfl, ?_⟩
        rw [if_neg (by rw [u8lt, u8ofNat (by omega)]; simp; omega), if_neg (by rw [u8lt, u8ofNat (by omega)]; simp; omega),
          if_neg (by rw [u8lt, u8ofNat (by omega)]; first | (simp; done) | (simp; omega))]
        rfl

theorem u8ofNat_inj {a b : Nat} (ha : a < 256) (hb : b < 256) (h : UInt8.ofNat a = UInt8.ofNat b) : a = b := by
  rw [← u8ofNat ha, h, u8ofNat hb]

theorem utf8Char_inj {v w : Nat} (hv : Scalar v) (hw : Scalar w) (h : utf8Char v = utf8Char w) : v = w := by
  unfold Scalar at hv hw
  unfold utf8Char at h
  repeat' split at h
  all_goals simp only [List.cons.injEq, and_true, reduceCtorEq, and_false] at h
  · exact u8ofNat_inj (by omega) (by omega) h
  · have h1 := u8ofNat_inj (by omega) (by omega) h.1
    have h2 := u8ofNat_inj (by omega) (by omega) h.2
    omega
  · have h1 := u8ofNat_inj (by omega) (by omega) h.1
    have h2 := u8ofNat_inj (by omega) (by omega) h.2.1
    have h3 := u8ofNat_inj (by omega) (by omega) h.2.2
    omega
  · have h1 := u8ofNat_inj (by omega) (by omega) h.1
    have h2 := u8ofNat_inj (by omega) (by omega) h.2.1
    have h3 := u8ofNat_inj (by omega) (by omega) h.2.2.1
    have h4 := u8ofNat_inj (by omega) (by omega) h.2.2.2
    omega

theorem utf8Char_above {v : Nat} (hv : Scalar v) (h : 128 ≤ v) : ∀ b ∈ utf8Char v, 128 ≤ b.toNat := by
  unfold Scalar at hv
  unfold utf8Char
  rw [if_neg (by omega)]
  repeat' split
  all_goals simp only [List.mem_cons, List.not_mem_nil, or_false]
  · rintro b (rfl | rfl) <;> rw [u8ofNat (by omega)] <;> omega
  · rintro b (rfl | rfl | rfl) <;> rw [u8ofNat (by omega)] <;> omega
  · rintro b (rfl | rfl | rfl | rfl) <;> rw [u8ofNat (by omega)] <;> omega

theorem pieces_text : ∀ {vs : List Nat} {n : Nat}, (∀ v ∈ vs, Scalar v) → (vs.flatMap utf8Char).length ≤ n →
    pieces n (vs.flatMap utf8Char) = vs.map utf8Char := by
  intro vs
  induction vs with
  | nil => intro n _ _; exact pieces_nil n
  | cons v vs ih =>
    intro n hv hn
    obtain ⟨b, p, h1, h2⟩ := utf8Char_shape (hv v (by simp))
    have := charLen_pos b
    rw [List.flatMap_cons, List.length_append, h1] at hn
    obtain ⟨n, rfl⟩ : ∃ k, n = k + 1 := ⟨n - 1, by omega⟩
    rw [List.flatMap_cons, h1, pieces_full h2, List.map_cons, h1, ih (fun x hx => hv x (by simp [hx])) (by omega)]

theorem ascii_text {s : Bytes} (h : isAscii s = true) : s = (s.map UInt8.toNat).flatMap utf8Char ∧
    ∀ v ∈ s.map UInt8.toNat, v < 128 := by
  rw [isAscii_iff] at h
  induction s with
  | nil => exact ⟨rfl, by simp⟩
  | cons b s ih =>
    obtain ⟨h1, h2⟩ := ih fun x hx => h x (by simp [hx])
    refine ⟨?_, ?_⟩
    · rw [List.map_cons, List.flatMap_cons, utf8Char_ascii (h b (by simp)), u8eq rfl, ← h1]; rfl
    · intro v hv
      rcases List.mem_cons.1 hv with rfl | hv
      · exact h b (by simp)
      · exact h2 v hv

theorem pieces_ascii {s : Bytes} (h : isAscii s = true) {n : Nat} (hn : s.length ≤ n) : pieces n s = s.map fun b => [b] := by
  obtain ⟨h1, h2⟩ := ascii_text h
  have := pieces_text (vs := s.map UInt8.toNat) (n := n) (fun v hv => .inl (by have := h2 v hv; omega)) (h1 ▸ hn)
  rw [← h1] at this
  rw [this, List.map_map]
  apply List.map_congr_left
  intro b hb
  show utf8Char b.toNat = [b]
  rw [utf8Char_ascii (h2 _ (List.mem_map_of_mem hb)), u8eq rfl]

theorem upPiece_one : ∀ b : UInt8, b < 0x80 → upPiece [b] = [asciiUpperByte b] := by
  rw [UInt8.forall_iff_fin]; decide +kernel

theorem lowPiece_one : ∀ b : UInt8, b < 0x80 → lowPiece [b] = [asciiLowerByte b] := by
  rw [UInt8.forall_iff_fin]; decide +kernel

theorem flatMap_ones {f : Bytes → Bytes} {g : UInt8 → UInt8} (hf : ∀ b : UInt8, b < 0x80 → f [b] = [g b]) {s : Bytes}
    (h : isAscii s = true) : (s.map fun b => [b]).flatMap f = s.map g := by
  induction s with
  | nil => rfl
  | cons b s ih =>
    simp only [isAscii, List.all_cons, Bool.and_eq_true, decide_eq_true_eq] at h
    rw [List.map_cons, List.flatMap_cons, hf b h.1, ih h.2]; rfl

theorem lowByte_facts : ∀ b : UInt8, charLen (asciiLowerByte b) = charLen b ∧
    asciiLowerByte (asciiLowerByte b) = asciiLowerByte b ∧ (0x80 ≤ b → asciiLowerByte b = b) := by
  rw [UInt8.forall_iff_fin]; decide +kernel

theorem lowByte_keeps {b x : UInt8} (hx : 0x80 ≤ x) (h : asciiLowerByte b = x) : b = x := by
  have : ∀ b : UInt8, b < 0x80 → asciiLowerByte b < 0x80 := by rw [UInt8.forall_iff_fin]; decide +kernel
  by_cases hb : b < 0x80
  · have := this b hb
    rw [h, u8lt] at this
    rw [u8le] at hx
    omega
  · rw [← h, (lowByte_facts b).2.2 (by rw [u8le]; rw [u8lt] at hb; omega)]

theorem lowPiece_idem (p : Bytes) : lowPiece (lowPiece p) = lowPiece p := by
  unfold lowPiece
  split
  · decide +kernel
  · rename_i h
    split
    · rename_i h2
      exfalso
      apply h
      have hk : utf8Char 0x212A = [0xE2, 0x84, 0xAA] := by decide +kernel
      rw [hk] at h2 ⊢
      have hl : p.length = 3 := by
        have := congrArg List.length h2
        simpa using this
      match p, hl with
      | [a, b, d], _ =>
        simp only [List.map_cons, List.map_nil, List.cons.injEq, and_true] at h2
        rw [lowByte_keeps (by decide) h2.1, lowByte_keeps (by decide) h2.2.1, lowByte_keeps (by decide) h2.2.2]
    · rw [List.map_map]
      apply List.map_congr_left
      intro b _
      exact (lowByte_facts b).2.1

theorem lowPiece_shape {b : UInt8} {p : Bytes} : ∃ b' p', lowPiece (b :: p) = b' :: p' ∧
    ((b :: p).length = charLen b → (b' :: p').length = charLen b') ∧
    ((b :: p).length ≤ charLen b → (b' :: p').length ≤ charLen b') := by
  unfold lowPiece
  split
  · exact ⟨107, [], rfl, fun _ => rfl, fun _ => by decide⟩
  · refine ⟨asciiLowerByte b, p.map asciiLowerByte, rfl, ?_, ?_⟩ <;>
      simp only [List.length_cons, List.length_map, (lowByte_facts b).1, imp_self]

theorem pieces_lowered : ∀ (n : Nat) (s : Bytes), s.length ≤ n → ∀ m, ((pieces n s).flatMap lowPiece).length ≤ m →
    pieces m ((pieces n s).flatMap lowPiece) = (pieces n s).map lowPiece := by
  intro n
  induction n with
  | zero => intro s _ m _; exact pieces_nil m
  | succ n ih =>
    intro s hs m hm
    cases s with
    | nil => exact pieces_nil m
    | cons b r =>
      have hp := charLen_pos b
      obtain ⟨q, hq⟩ : ∃ q, (b :: r).take (charLen b) = b :: q := by
        obtain ⟨k, hk⟩ : ∃ k, charLen b = k + 1 := ⟨charLen b - 1, by omega⟩
        rw [hk]; exact ⟨_, rfl⟩
      have e : pieces (n + 1) (b :: r) = (b :: q) :: pieces n ((b :: r).drop (charLen b)) := by
        show (b :: r).take (charLen b) :: _ = _
        rw [hq]
      rw [e] at hm ⊢
      obtain ⟨b', p', h1, h2, h3⟩ := lowPiece_shape (b := b) (p := q)
      simp only [List.flatMap_cons, List.map_cons, h1, List.length_append, List.length_cons] at hm ⊢
      obtain ⟨m, rfl⟩ : ∃ k, m = k + 1 := ⟨m - 1, by omega⟩
      have hl : (b :: q).length = min (charLen b) (b :: r).length := by rw [← hq, List.length_take]
      by_cases hf : charLen b ≤ (b :: r).length
      · rw [pieces_full (h2 (by rw [hl]; omega)), ih _ (by rw [List.length_drop]; simp only [List.length_cons] at hs ⊢; omega) m
          (by omega)]
      · rw [List.drop_of_length_le (by omega), pieces_nil]
        simp only [List.flatMap_nil, List.append_nil, List.map_nil]
        exact pieces_last (h3 (by rw [hl]; omega))

/-- A case mapping that is Unicode's for ASCII and the characters of the specification, and leaves the others. -/
@[reducible] def someUnicode : CaseMap where
  lower s := (pieces s.length s).flatMap lowPiece
  upper s := (pieces s.length s).flatMap upPiece
  lower_ascii s h := by rw [pieces_ascii h (Nat.le_refl _), flatMap_ones lowPiece_one h]
  upper_ascii s h := by rw [pieces_ascii h (Nat.le_refl _), flatMap_ones upPiece_one h]
  lower_idem s := by
    rw [pieces_lowered _ s (Nat.le_refl _) _ (Nat.le_refl _), List.flatMap_map]
    simp only [lowPiece_idem]

theorem someUnicode_ok : let _ := someUnicode
    UnicodeCase (fun v => upPiece (utf8Char v)) (fun v => lowPiece (utf8Char v)) := by
  intro _
  refine ⟨?_, ?_, ?_, ?_, ?_, ?_, ?_⟩
  · intro vs h
    show (pieces _ _).flatMap upPiece = _
    rw [pieces_text h (Nat.le_refl _), List.flatMap_map]
  · unfold asciiUppers; decide +kernel
  · intro v hv h ha
    unfold upPiece at ha ⊢
    cases hf : asciiUppers.find? fun q => utf8Char q.1 == utf8Char v with
    | some q =>
      have h1 := List.find?_some hf
      have h2 := List.mem_of_find?_eq_some hf
      rw [beq_iff_eq] at h1
      have := utf8Char_inj (asciiUppers_facts _ h2).1 hv h1
      rw [← this]; exact h2
    | none =>
      rw [hf] at ha
      exfalso
      obtain ⟨b, p, h1, h2⟩ := utf8Char_shape hv
      have h3 := utf8Char_above hv h b (by rw [h1]; simp)
      rw [h1] at ha
      have h4 := ha (asciiUpperByte b) (by simp)
      have : ∀ b : UInt8, 128 ≤ b.toNat → ¬ (asciiUpperByte b).toNat < 128 := by
        rw [UInt8.forall_iff_fin]; decide +kernel
      exact this b h3 h4
  · intro vs h _
    show (pieces _ _).flatMap lowPiece = _
    rw [pieces_text h (Nat.le_refl _), List.flatMap_map]
  · intro vs h hm ha
    have e : CaseMap.lower (vs.flatMap utf8Char) = vs.flatMap fun v => lowPiece (utf8Char v) := by
      show (pieces _ _).flatMap lowPiece = _
      rw [pieces_text h (Nat.le_refl _), List.flatMap_map]
    rw [e] at ha
    have := ha 0xCE (List.mem_flatMap.2 ⟨0x3A3, hm, by decide +kernel⟩)
    exact absurd this (by decide)
  · decide +kernel
  · intro v hv h ha
    by_cases hk : utf8Char v = utf8Char 0x212A
    · exact utf8Char_inj hv (.inl (by omega)) hk
    · exfalso
      unfold lowPiece at ha
      rw [if_neg hk] at ha
      obtain ⟨b, p, h1, h2⟩ := utf8Char_shape hv
      have h3 := utf8Char_above hv h b (by rw [h1]; simp)
      rw [h1] at ha
      have h4 := ha (asciiLowerByte b) (by simp)
      have : ∀ b : UInt8, 128 ≤ b.toNat → ¬ (asciiLowerByte b).toNat < 128 := by
        rw [UInt8.forall_iff_fin]; decide +kernel
      exact this b h3 h4

end HttpIo
