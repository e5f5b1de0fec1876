import Verif.Model.Text

/-! UTF-8: validity splits at ASCII bytes, appends, and gives char boundaries. -/

set_option linter.unusedSimpArgs false

namespace HttpIo

theorem validUtf8_cons (b0 : UInt8) (rest : Bytes) : validUtf8 (b0 :: rest) =
    if b0 < 0x80 then validUtf8 rest
    else if 0xC2 ≤ b0 && b0 ≤ 0xDF then
      match rest with
      | b1 :: rest' => isCont b1 && validUtf8 rest'
      | _ => false
    else if 0xE0 ≤ b0 && b0 ≤ 0xEF then
      match rest with
      | b1 :: b2 :: rest' =>
        (if b0 == 0xE0 then 0xA0 ≤ b1 && b1 ≤ 0xBF
         else if b0 == 0xED then 0x80 ≤ b1 && b1 ≤ 0x9F
         else isCont b1) && isCont b2 && validUtf8 rest'
      | _ => false
    else if 0xF0 ≤ b0 && b0 ≤ 0xF4 then
      match rest with
      | b1 :: b2 :: b3 :: rest' =>
        (if b0 == 0xF0 then 0x90 ≤ b1 && b1 ≤ 0xBF
         else if b0 == 0xF4 then 0x80 ≤ b1 && b1 ≤ 0x8F
         else isCont b1) && isCont b2 && isCont b3 && validUtf8 rest'
      | _ => false
    else false := by
  conv => lhs; unfold validUtf8
  rfl

theorem validUtf8_cons_ascii {b : UInt8} (h : b < 0x80) (s : Bytes) : validUtf8 (b :: s) = validUtf8 s := by
  rw [validUtf8_cons]; simp [h]

theorem isCont_false_of_ascii {b : UInt8} (h : b < 0x80) : isCont b = false := by
  unfold isCont
  have : ¬ (0x80 ≤ b) := by exact UInt8.not_le.2 h
  simp [this]

theorem validUtf8_append (a b : Bytes) (ha : validUtf8 a = true) : validUtf8 (a ++ b) = validUtf8 b := by
  fun_induction validUtf8 a with
  | case1 => simp
  | case2 b0 rest h ih => 
    rw [List.cons_append, validUtf8_cons]; simp [h, ih ha]
  | case3 b0 h1 h2 b1 rest' ih =>
    simp only [Bool.and_eq_true] at ha
    rw [List.cons_append, List.cons_append, validUtf8_cons]; simp only [h1, h2, ha.1, ih ha.2, if_true, if_false, Bool.false_eq_true, reduceIte]; simp
  | case5 b0 h1 h2 h3 b1 b2 rest' ih =>
    simp only [Bool.and_eq_true] at ha
    obtain ⟨⟨ha1, ha2⟩, ha3⟩ := ha
    rw [List.cons_append, List.cons_append, List.cons_append, validUtf8_cons]
    simp only [h1, h2, h3, if_true, if_false, Bool.false_eq_true, reduceIte, ih ha3, ha1, ha2]; simp
  | case7 b0 h1 h2 h3 h4 b1 b2 b3 rest' ih =>
    simp only [Bool.and_eq_true] at ha
    obtain ⟨⟨⟨ha1, ha2⟩, ha3⟩, ha4⟩ := ha
    rw [List.cons_append, List.cons_append, List.cons_append, List.cons_append, validUtf8_cons]
    simp only [h1, h2, h3, h4, if_true, if_false, Bool.false_eq_true, reduceIte, ih ha4, ha1, ha2, ha3]; simp
  | _ => simp at ha

theorem range3_ge {b0 b1 : UInt8} (h : (if b0 == 0xE0 then 0xA0 ≤ b1 && b1 ≤ 0xBF
         else if b0 == 0xED then 0x80 ≤ b1 && b1 ≤ 0x9F
         else isCont b1) = true) : ¬ b1 < 0x80 := by
  intro hlt
  have h80 := UInt8.lt_iff_toNat_lt.1 hlt
  split at h
  · simp only [Bool.and_eq_true, decide_eq_true_eq, UInt8.le_iff_toNat_le] at h; simp at *; omega
  · split at h
    · simp only [Bool.and_eq_true, decide_eq_true_eq, UInt8.le_iff_toNat_le] at h; simp at *; omega
    · simp [isCont_false_of_ascii hlt] at h

theorem range4_ge {b0 b1 : UInt8} (h : (if b0 == 0xF0 then 0x90 ≤ b1 && b1 ≤ 0xBF
         else if b0 == 0xF4 then 0x80 ≤ b1 && b1 ≤ 0x8F
         else isCont b1) = true) : ¬ b1 < 0x80 := by
  intro hlt
  have h80 := UInt8.lt_iff_toNat_lt.1 hlt
  split at h
  · simp only [Bool.and_eq_true, decide_eq_true_eq, UInt8.le_iff_toNat_le] at h; simp at *; omega
  · split at h
    · simp only [Bool.and_eq_true, decide_eq_true_eq, UInt8.le_iff_toNat_le] at h; simp at *; omega
    · simp [isCont_false_of_ascii hlt] at h

/-- Validity splits at an ASCII byte. -/
theorem validUtf8_split {b : UInt8} (hb : b < 0x80) (pre post : Bytes)
    (h : validUtf8 (pre ++ b :: post) = true) : validUtf8 pre = true ∧ validUtf8 post = true := by
  fun_induction validUtf8 pre with
  | case1 => simpa [validUtf8_cons_ascii hb] using h
  | case2 b0 rest h1 ih =>
    rw [List.cons_append, validUtf8_cons] at h; simp only [h1, if_true] at h; exact ih h
  | case3 b0 h1 h2 b1 rest' ih =>
    rw [List.cons_append, List.cons_append, validUtf8_cons] at h
    simp only [h1, h2, if_true, if_false, Bool.false_eq_true, reduceIte, Bool.and_eq_true] at h
    have := ih h.2
    simp [h.1, this]
  | case4 b0 rest h1 h2 hx =>
    cases rest with
    | nil =>
      rw [List.cons_append, List.nil_append, validUtf8_cons] at h
      simp only [h1, h2, if_true, if_false, Bool.false_eq_true, reduceIte, isCont_false_of_ascii hb] at h
      simp at h
    | cons b1 r => exact absurd rfl (hx b1 r)
  | case5 b0 h1 h2 h3 b1 b2 rest' ih =>
    rw [List.cons_append, List.cons_append, List.cons_append, validUtf8_cons] at h
    simp only [h1, h2, h3, if_true, if_false, Bool.false_eq_true, reduceIte, Bool.and_eq_true] at h
    obtain ⟨⟨ha1, ha2⟩, ha3⟩ := h
    have := ih ha3
    simp only [this, ha2, ha1]
    simp
  | case6 b0 rest h1 h2 h3 hx =>
    exfalso
    rw [List.cons_append, validUtf8_cons] at h
    simp only [h1, h2, h3, if_true, if_false, Bool.false_eq_true, reduceIte] at h
    match rest with
    | [] =>
      rw [List.nil_append] at h
      cases post with
      | nil => simp at h
      | cons p ps =>
        simp only [Bool.and_eq_true] at h
        exact range3_ge h.1.1 hb
    | [b1] =>
      simp only [List.cons_append, List.nil_append, isCont_false_of_ascii hb] at h
      simp at h
    | b1 :: b2 :: r => exact absurd rfl (hx b1 b2 r)
  | case7 b0 h1 h2 h3 h4 b1 b2 b3 rest' ih =>
    rw [List.cons_append, List.cons_append, List.cons_append, List.cons_append, validUtf8_cons] at h
    simp only [h1, h2, h3, h4, if_true, if_false, Bool.false_eq_true, reduceIte, Bool.and_eq_true] at h
    obtain ⟨⟨⟨ha1, ha2⟩, ha3⟩, ha4⟩ := h
    have := ih ha4
    simp only [this, ha3, ha2, ha1]
    simp
  | case8 b0 rest h1 h2 h3 h4 hx =>
    exfalso
    rw [List.cons_append, validUtf8_cons] at h
    simp only [h1, h2, h3, h4, if_true, if_false, Bool.false_eq_true, reduceIte] at h
    match rest with
    | [] =>
      rw [List.nil_append] at h
      match post with
      | [] => simp at h
      | [_] => simp at h
      | p :: q :: ps =>
        simp only [Bool.and_eq_true] at h
        exact range4_ge h.1.1.1 hb
    | [b1] =>
      cases post with
      | nil => simp at h
      | cons p ps =>
        simp only [List.cons_append, List.nil_append, isCont_false_of_ascii hb] at h
        simp at h
    | [b1, b2] =>
      simp only [List.cons_append, List.nil_append, isCont_false_of_ascii hb] at h
      simp at h
    | b1 :: b2 :: b3 :: r => exact absurd rfl (hx b1 b2 b3 r)
  | case9 b0 rest h1 h2 h3 h4 =>
    rw [List.cons_append, validUtf8_cons] at h
    simp [h1, h2, h3, h4] at h

theorem not_cont_head {b : UInt8} {s : Bytes} (h : validUtf8 (b :: s) = true) : isCont b = false := by
  rw [validUtf8_cons] at h
  cases hc : isCont b with
  | false => rfl
  | true =>
    exfalso
    unfold isCont at hc
    simp only [Bool.and_eq_true, decide_eq_true_eq, UInt8.le_iff_toNat_le] at hc
    simp at hc
    have n1 : ¬ b < 0x80 := by rw [UInt8.lt_iff_toNat_lt]; simp; omega
    have n2 : ¬ (0xC2 ≤ b) := by rw [UInt8.le_iff_toNat_le]; simp; omega
    have n3 : ¬ (0xE0 ≤ b) := by rw [UInt8.le_iff_toNat_le]; simp; omega
    have n4 : ¬ (0xF0 ≤ b) := by rw [UInt8.le_iff_toNat_le]; simp; omega
    simp [n1, n2, n3, n4] at h

/-- In a valid string, the end of every valid prefix is a char boundary. -/
theorem boundary_of_valid_split {pre post : Bytes} (h : validUtf8 post = true) :
    isCharBoundary (pre ++ post) pre.length = true := by
  unfold isCharBoundary
  split
  · rfl
  · cases post with
    | nil => simp
    | cons b bs => simp [not_cont_head h]

theorem isCharBoundary_zero (s : Bytes) : isCharBoundary s 0 = true := by simp [isCharBoundary]

theorem isCharBoundary_length (s : Bytes) : isCharBoundary s s.length = true := by simp [isCharBoundary]

theorem sliceFrom_append {pre post : Bytes} (h : validUtf8 post = true) :
    sliceFrom (pre ++ post) pre.length = .ok post := by
  unfold sliceFrom slice
  simp only [boundary_of_valid_split h, isCharBoundary_length, Bool.and_true]
  simp

theorem slice_append3 {a b d : Bytes} (h1 : validUtf8 (b ++ d) = true) (h2 : validUtf8 d = true) :
    slice (a ++ (b ++ d)) a.length (a.length + b.length) = .ok b := by
  unfold slice
  have e1 : isCharBoundary (a ++ (b ++ d)) a.length = true := boundary_of_valid_split h1
  have e2 : isCharBoundary (a ++ (b ++ d)) (a.length + b.length) = true := by
    have := boundary_of_valid_split (pre := a ++ b) h2
    simpa using this
  simp [e1, e2]

theorem validUtf8_of_ascii {s : Bytes} (h : isAscii s = true) : validUtf8 s = true := by
  induction s with
  | nil => simp [validUtf8]
  | cons b s ih =>
    simp only [isAscii, List.all_cons, Bool.and_eq_true, decide_eq_true_eq] at h
    rw [validUtf8_cons_ascii h.1]
    exact ih h.2

end HttpIo
