import Verif.Model.StreamText
import Verif.Spec.StreamText
import Verif.Lemmas.Stream
import Verif.Lemmas.Utf8Spec
import Verif.Lemmas.Num

/-! Lemmas for C172: where bytes are not UTF-8, and which line of a stream cannot be read. -/

namespace HttpIo
open Spec

theorem decimal_showDec (n : Nat) : Decimal (showDec n) n := by
  refine ⟨numeral_showDec n, ?_⟩
  have hne : ∀ n, toRadix 8 n ≠ [] := by intro n; unfold toRadix; split <;> simp
  have key : ∀ n, (toRadix 8 n).head? = some 48 → n = 0 := by
    intro n
    induction n using Nat.strongRecOn with
    | ind n ih =>
      intro h
      unfold toRadix at h
      split at h
      · rename_i hn
        revert h
        have : ∀ n < 10, [digitChar n].head? = some 48 → n = 0 := by decide
        exact this n hn
      · rw [List.head?_append, Option.or_of_isSome (by simpa using hne _)] at h
        have := ih (n / 10) (by omega) h
        omega
  intro h
  rw [key n h]
  decide +kernel

/-! ### Text -/

theorem textFault_shift {x l : Bytes} (hx : ∀ r, IsText (x ++ r) ↔ IsText r) {n : Nat} {k : Option Nat} (h : TextFault l n k) :
    TextFault (x ++ l) (n + x.length) k := by
  obtain ⟨h1, h2, h3, h4⟩ := h
  have ht : ∀ m, (x ++ l).take (m + x.length) = x ++ l.take m := by
    intro m; rw [List.take_append, List.take_of_length_le (by omega)]; congr 2; omega
  have hb : ∀ r, TextBegins (x ++ r) ↔ TextBegins r := by
    intro r
    unfold TextBegins
    simp only [List.append_assoc, hx]
  refine ⟨by simp; omega, by rw [ht, hx]; exact h2, ?_, ?_⟩
  · intro m hm hm'
    obtain ⟨m, rfl⟩ : ∃ i, m = i + x.length := ⟨m - x.length, by omega⟩
    rw [ht, hx]
    exact h3 m (by omega) (by simp at hm'; omega)
  · cases k with
    | none => exact (hb _).2 h4
    | some j =>
      have e1 : n + x.length + j = n + j + x.length := by omega
      have e2 : n + x.length + j + 1 = n + j + 1 + x.length := by omega
      dsimp only at h4 ⊢
      rw [e1, show n + j + x.length + 1 = n + j + 1 + x.length by omega, ht, ht, hb, hb]
      exact h4

/-- A fault at the first character: no beginning of `l` is text. -/
theorem textFault_zero {b : UInt8} {l : Bytes} (h : ∀ m, ¬ IsText (b :: l.take m)) {k : Option Nat}
    (hk : match k with
      | none => TextBegins (b :: l)
      | some j => (j = 1 ∨ 1 < j ∧ TextBegins ((b :: l).take j)) ∧ ¬ TextBegins ((b :: l).take (j + 1))) :
    TextFault (b :: l) 0 k := by
  refine ⟨by simp, ⟨[], by simp, rfl⟩, ?_, ?_⟩
  · intro m hm _
    obtain ⟨m, rfl⟩ : ∃ i, m = i + 1 := ⟨m - 1, by omega⟩
    rw [List.take_succ_cons]
    exact h m
  · cases k with
    | none => exact hk
    | some j => simpa using hk

/-- Second bytes of characters of three bytes. -/
def second3 (b0 b1 : UInt8) : Bool :=
  if b0 == 0xE0 then 0xA0 ≤ b1 && b1 ≤ 0xBF else if b0 == 0xED then 0x80 ≤ b1 && b1 ≤ 0x9F else isCont b1

/-- Second bytes of characters of four bytes. -/
def second4 (b0 b1 : UInt8) : Bool :=
  if b0 == 0xF0 then 0x90 ≤ b1 && b1 ≤ 0xBF else if b0 == 0xF4 then 0x80 ≤ b1 && b1 ≤ 0x8F else isCont b1

theorem second3_some (b0 : UInt8) : second3 b0 (if b0 == 0xE0 then 0xA0 else 0x80) = true := by
  unfold second3
  by_cases h : b0 = 0xE0
  · subst h; decide
  · by_cases h' : b0 = 0xED
    · subst h'; decide
    · simp [h, h']; decide

theorem second4_some (b0 : UInt8) : second4 b0 (if b0 == 0xF0 then 0x90 else 0x80) = true := by
  unfold second4
  by_cases h : b0 = 0xF0
  · subst h; decide
  · by_cases h' : b0 = 0xF4
    · subst h'; decide
    · simp [h, h']; decide

theorem valid_three {b0 : UInt8} (h0 : ¬ b0 < 0x80) (h1 : ¬ (0xC2 ≤ b0 && b0 ≤ 0xDF) = true) (h2 : (0xE0 ≤ b0 && b0 ≤ 0xEF) = true) :
    (∀ b1 b2 r, validUtf8 (b0 :: b1 :: b2 :: r) = (second3 b0 b1 && isCont b2 && validUtf8 r)) ∧
    (∀ b1, validUtf8 [b0, b1] = false) ∧ validUtf8 [b0] = false := by
  refine ⟨fun b1 b2 r => ?_, fun b1 => ?_, ?_⟩ <;> rw [validUtf8.eq_def] <;> dsimp only <;>
    rw [if_neg h0, if_neg h1, if_pos h2] <;> rfl

theorem valid_four {b0 : UInt8} (h0 : ¬ b0 < 0x80) (h1 : ¬ (0xC2 ≤ b0 && b0 ≤ 0xDF) = true)
    (h2 : ¬ (0xE0 ≤ b0 && b0 ≤ 0xEF) = true) (h3 : (0xF0 ≤ b0 && b0 ≤ 0xF4) = true) :
    (∀ b1 b2 b3 r, validUtf8 (b0 :: b1 :: b2 :: b3 :: r) = (second4 b0 b1 && isCont b2 && isCont b3 && validUtf8 r)) ∧
    (∀ b1 b2, validUtf8 [b0, b1, b2] = false) ∧ (∀ b1, validUtf8 [b0, b1] = false) ∧ validUtf8 [b0] = false := by
  refine ⟨fun b1 b2 b3 r => ?_, fun b1 b2 => ?_, fun b1 => ?_, ?_⟩ <;> rw [validUtf8.eq_def] <;> dsimp only <;>
    rw [if_neg h0, if_neg h1, if_neg h2, if_pos h3] <;> rfl

theorem utf8Fail_spec (off : Nat) (l : Bytes) : (utf8Fail off l = none ∧ IsText l) ∨
    ∃ n k, utf8Fail off l = some (n + off, k) ∧ TextFault l n k := by
  have step : ∀ {x l : Bytes} {off : Nat} {r : Option (Nat × Option Nat)}, (∀ r, validUtf8 (x ++ r) = validUtf8 r) →
      (r = none ∧ IsText l ∨ ∃ n k, r = some (n + (off + x.length), k) ∧ TextFault l n k) →
      (r = none ∧ IsText (x ++ l)) ∨ ∃ n k, r = some (n + off, k) ∧ TextFault (x ++ l) n k := by
    intro x l off r hx h
    have hx' : ∀ r, IsText (x ++ r) ↔ IsText r := by intro r; rw [← validUtf8_iff, ← validUtf8_iff, hx]
    rcases h with ⟨h1, h2⟩ | ⟨n, k, h1, h2⟩
    · exact .inl ⟨h1, (hx' _).2 h2⟩
    · exact .inr ⟨n + x.length, k, by rw [h1]; congr 2; omega, textFault_shift hx' h2⟩
  have leaf : ∀ {b : UInt8} {l : Bytes} {off : Nat} (k : Option Nat), (∀ m, validUtf8 (b :: l.take m) = false) →
      (match k with
      | none => ∃ more, validUtf8 (b :: l ++ more) = true
      | some j => (j = 1 ∨ 1 < j ∧ ∃ more, validUtf8 ((b :: l).take j ++ more) = true) ∧
          ∀ more, validUtf8 ((b :: l).take (j + 1) ++ more) = false) →
      ((some (off, k) : Option (Nat × Option Nat)) = none ∧ IsText (b :: l)) ∨
        ∃ n k', some (off, k) = some (n + off, k') ∧ TextFault (b :: l) n k' := by
    intro b l off k h hk
    refine .inr ⟨0, k, by simp, textFault_zero (fun m hm => ?_) ?_⟩
    · rw [← validUtf8_iff, h m] at hm; simp at hm
    · cases k with
      | none => exact hk.imp fun m hm => (validUtf8_iff _).1 hm
      | some j =>
        obtain ⟨h1, h2⟩ := hk
        refine ⟨h1.imp_right fun ⟨h3, m, hm⟩ => ⟨h3, m, (validUtf8_iff _).1 hm⟩, fun ⟨m, hm⟩ => ?_⟩
        rw [← validUtf8_iff, h2 m] at hm; simp at hm
  have c80 : isCont 0x80 = true := by decide
  fun_induction utf8Fail off l with
  | case1 => exact .inl ⟨rfl, [], by simp, rfl⟩
  | case2 off b0 rest h0 ih =>
    refine step (x := [b0]) (fun r => ?_) ih
    show validUtf8 (b0 :: r) = _
    rw [validUtf8.eq_def]; dsimp only; rw [if_pos h0]
  | case3 off b0 h0 h1 =>
    refine leaf none (by intro m; simp [validUtf8, h0, h1]) ⟨[0x80], ?_⟩
    simp [validUtf8, h0, h1, c80]
  | case4 off b0 h0 h1 b1 rest h2 ih => exact step (x := [b0, b1]) (by intro r; simp [validUtf8, h0, h1, h2]) ih
  | case5 off b0 h0 h1 b1 rest h2 =>
    refine leaf (some 1) ?_ ⟨.inl rfl, ?_⟩
    · intro m; rcases m with _ | m <;> simp [validUtf8, h0, h1, h2]
    · intro more; simp [validUtf8, h0, h1, h2]
  | case6 off b0 h0 h1 h2 =>
    obtain ⟨e3, e2, e1⟩ := valid_three h0 h1 h2
    refine leaf none (by intro m; simp [e1]) ⟨[if b0 == 0xE0 then 0xA0 else 0x80, 0x80], ?_⟩
    show validUtf8 [b0, if b0 == 0xE0 then 0xA0 else 0x80, 0x80] = true
    rw [e3, second3_some, c80]; rfl
  | case7 off b0 h0 h1 h2 b1 h3 =>
    obtain ⟨e3, e2, e1⟩ := valid_three h0 h1 h2
    replace h3 : second3 b0 b1 = true := h3
    refine leaf none ?_ ⟨[0x80], ?_⟩
    · intro m; rcases m with _ | m <;> simp [e1, e2]
    · show validUtf8 [b0, b1, 0x80] = true
      rw [e3, h3, c80]; rfl
  | case8 off b0 h0 h1 h2 b1 h3 b2 rest h4 ih =>
    obtain ⟨e3, e2, e1⟩ := valid_three h0 h1 h2
    replace h3 : second3 b0 b1 = true := h3
    exact step (x := [b0, b1, b2]) (by intro r; simp [e3, h3, h4]) ih
  | case9 off b0 h0 h1 h2 b1 h3 b2 rest h4 =>
    obtain ⟨e3, e2, e1⟩ := valid_three h0 h1 h2
    replace h3 : second3 b0 b1 = true := h3
    refine leaf (some 2) ?_ ⟨.inr ⟨by omega, [0x80], ?_⟩, ?_⟩
    · intro m; rcases m with _ | _ | m <;> simp [e1, e2, e3, h4]
    · show validUtf8 [b0, b1, 0x80] = true
      rw [e3, h3, c80]; rfl
    · intro more; simp [e3, h4]
  | case10 off b0 h0 h1 h2 b1 rest h3 =>
    obtain ⟨e3, e2, e1⟩ := valid_three h0 h1 h2
    replace h3 : second3 b0 b1 = false := Bool.eq_false_iff.2 h3
    refine leaf (some 1) ?_ ⟨.inl rfl, ?_⟩
    · intro m
      rcases m with _ | m
      · exact e1
      · rw [List.take_succ_cons]
        rcases rest.take m with _ | ⟨x, r⟩
        · exact e2 _
        · rw [e3, h3]; rfl
    · intro more
      rcases more with _ | ⟨x, more⟩
      · exact e2 _
      · show validUtf8 (b0 :: b1 :: x :: more) = false
        rw [e3, h3]; rfl
  | case11 off b0 h0 h1 h2 h3 =>
    obtain ⟨e4, e3, e2, e1⟩ := valid_four h0 h1 h2 h3
    refine leaf none (by intro m; simp [e1]) ⟨[if b0 == 0xF0 then 0x90 else 0x80, 0x80, 0x80], ?_⟩
    show validUtf8 [b0, if b0 == 0xF0 then 0x90 else 0x80, 0x80, 0x80] = true
    rw [e4, second4_some, c80]; rfl
  | case12 off b0 h0 h1 h2 h3 b1 h4 =>
    obtain ⟨e4, e3, e2, e1⟩ := valid_four h0 h1 h2 h3
    replace h4 : second4 b0 b1 = true := h4
    refine leaf none ?_ ⟨[0x80, 0x80], ?_⟩
    · intro m; rcases m with _ | m <;> simp [e1, e2]
    · show validUtf8 [b0, b1, 0x80, 0x80] = true
      rw [e4, h4, c80]; rfl
  | case13 off b0 h0 h1 h2 h3 b1 h4 b2 h5 =>
    obtain ⟨e4, e3, e2, e1⟩ := valid_four h0 h1 h2 h3
    replace h4 : second4 b0 b1 = true := h4
    refine leaf none ?_ ⟨[0x80], ?_⟩
    · intro m; rcases m with _ | _ | m <;> simp [e1, e2, e3]
    · show validUtf8 [b0, b1, b2, 0x80] = true
      rw [e4, h4, h5, c80]; rfl
  | case14 off b0 h0 h1 h2 h3 b1 h4 b2 h5 b3 rest h6 ih =>
    obtain ⟨e4, e3, e2, e1⟩ := valid_four h0 h1 h2 h3
    replace h4 : second4 b0 b1 = true := h4
    exact step (x := [b0, b1, b2, b3]) (by intro r; simp [e4, h4, h5, h6]) ih
  | case15 off b0 h0 h1 h2 h3 b1 h4 b2 h5 b3 rest h6 =>
    obtain ⟨e4, e3, e2, e1⟩ := valid_four h0 h1 h2 h3
    replace h4 : second4 b0 b1 = true := h4
    refine leaf (some 3) ?_ ⟨.inr ⟨by omega, [0x80], ?_⟩, ?_⟩
    · intro m; rcases m with _ | _ | _ | m <;> simp [e1, e2, e3, e4, h6]
    · show validUtf8 [b0, b1, b2, 0x80] = true
      rw [e4, h4, h5, c80]; rfl
    · intro more; simp [e4, h6]
  | case16 off b0 h0 h1 h2 h3 b1 h4 b2 rest h5 =>
    obtain ⟨e4, e3, e2, e1⟩ := valid_four h0 h1 h2 h3
    replace h4 : second4 b0 b1 = true := h4
    refine leaf (some 2) ?_ ⟨.inr ⟨by omega, [0x80, 0x80], ?_⟩, ?_⟩
    · intro m
      rcases m with _ | _ | m
      · exact e1
      · exact e2 _
      · rw [List.take_succ_cons, List.take_succ_cons]
        rcases rest.take m with _ | ⟨x, r⟩
        · exact e3 _ _
        · rw [e4]; simp [h5]
    · show validUtf8 [b0, b1, 0x80, 0x80] = true
      rw [e4, h4, c80]; rfl
    · intro more
      rcases more with _ | ⟨x, more⟩
      · exact e3 _ _
      · show validUtf8 (b0 :: b1 :: b2 :: x :: more) = false
        rw [e4]; simp [h5]
  | case17 off b0 h0 h1 h2 h3 b1 rest h4 =>
    obtain ⟨e4, e3, e2, e1⟩ := valid_four h0 h1 h2 h3
    replace h4 : second4 b0 b1 = false := Bool.eq_false_iff.2 h4
    refine leaf (some 1) ?_ ⟨.inl rfl, ?_⟩
    · intro m
      rcases m with _ | m
      · exact e1
      · rw [List.take_succ_cons]
        rcases rest.take m with _ | ⟨x, _ | ⟨y, r⟩⟩
        · exact e2 _
        · exact e3 _ _
        · rw [e4, h4]; rfl
    · intro more
      rcases more with _ | ⟨x, _ | ⟨y, more⟩⟩
      · exact e2 _
      · exact e3 _ _
      · show validUtf8 (b0 :: b1 :: x :: y :: more) = false
        rw [e4, h4]; rfl
  | case18 off b0 rest h0 h1 h2 h3 =>
    have e : ∀ r, validUtf8 (b0 :: r) = false := by
      intro r; rw [validUtf8.eq_def]; dsimp only; rw [if_neg h0, if_neg h1, if_neg h2, if_neg h3]
    refine leaf (some 1) (fun m => e _) ⟨.inl rfl, fun more => ?_⟩
    simp only [List.take_succ_cons, List.cons_append]
    exact e _

theorem utf8Fail_fault {l : Bytes} (h : ¬ IsText l) : ∃ n k, utf8Fail 0 l = some (n, k) ∧ TextFault l n k := by
  rcases utf8Fail_spec 0 l with ⟨_, h1⟩ | ⟨n, k, h1, h2⟩
  · exact absurd h1 h
  · exact ⟨n, k, h1, h2⟩

/-- There is one place where bytes are not text. -/
theorem textFault_unique {l : Bytes} {n n' : Nat} {k k' : Option Nat} (h : TextFault l n k) (h' : TextFault l n' k') :
    n = n' ∧ k = k' := by
  obtain ⟨a1, a2, a3, a4⟩ := h
  obtain ⟨b1, b2, b3, b4⟩ := h'
  have hn : n = n' := by
    rcases Nat.lt_trichotomy n n' with h | h | h
    · exact absurd b2 (a3 _ h (by omega))
    · exact h
    · exact absurd a2 (b3 _ h (by omega))
  subst hn
  have mono : ∀ {i j : Nat}, i ≤ j → TextBegins (l.take j) → TextBegins (l.take i) := by
    rintro i j hij ⟨more, hm⟩
    have : l.take j = l.take i ++ (l.drop i).take (j - i) := by
      rw [← List.take_add, show i + (j - i) = j by omega]
    rw [this, List.append_assoc] at hm
    exact ⟨_, hm⟩
  have whole : ∀ {i : Nat}, TextBegins l → TextBegins (l.take i) := by
    rintro i ⟨more, hm⟩
    rw [← List.take_append_drop i l, List.append_assoc] at hm
    exact ⟨_, hm⟩
  refine ⟨rfl, ?_⟩
  cases k with
  | none =>
    cases k' with
    | none => rfl
    | some j => exact absurd (whole a4) b4.2
  | some i =>
    cases k' with
    | none => exact absurd (whole b4) a4.2
    | some j =>
      have key : ∀ {i j : Nat}, (j = 1 ∨ 1 < j ∧ TextBegins (l.take (n + j))) → (i = 1 ∨ 1 < i) →
          ¬ TextBegins (l.take (n + i + 1)) → ¬ i < j := by
        intro i j hj hi hni hlt
        rcases hj with rfl | ⟨_, hj⟩
        · omega
        · exact hni (mono (by omega) hj)
      have := key b4.1 (a4.1.imp_right (·.1)) a4.2
      have := key a4.1 (b4.1.imp_right (·.1)) b4.2
      congr 1; omega

/-! ### Lines -/

/-- `innerSaid` on events. -/
def innerSaidT (c : Cfg) : Bytes → List Ev → Option LineSaid
  | _, [] => some .noEnd
  | line, .byte b :: t =>
    if (line ++ [b]).length ≥ 2 ∧ (line ++ [b])[(line ++ [b]).length - 2]? = some 13 ∧
        (line ++ [b])[(line ++ [b]).length - 1]? = some 10 then
      if ((line ++ [b]).take ((line ++ [b]).length - 2)).isEmpty then none
      else (utf8Fail 0 ((line ++ [b]).take ((line ++ [b]).length - 2))).map fun x => .notText x.1 x.2
    else innerSaidT c (line ++ [b]) t
  | line, .fault e :: t => if c.retries e then innerSaidT c line t else none

theorem innerSaidT_loop (c : Cfg) (line : Bytes) (t : List Ev) :
    innerSaidT c line t = match bytesNextT c t with
      | (none, _) => some .noEnd
      | (some (.error _), _) => none
      | (some (.ok b), t') => innerSaidT c line (.byte b :: t') := by
  induction t with
  | nil => rfl
  | cons ev t ih =>
    cases ev with
    | byte b => rw [bytesNextT]
    | fault e =>
      rw [innerSaidT, bytesNextT]
      by_cases h : c.retries e = true
      · rw [if_pos h, if_pos h]; exact ih
      · rw [if_neg h, if_neg h]

section
variable {σ : Type} [LawfulReader σ]

theorem innerSaid_trace (c : Cfg) (line : Bytes) (s : σ) : innerSaid c line s = innerSaidT c line (trace s) := by
  fun_induction innerSaid c line s with
  | case1 line s s' h => have := bytesNext_trace c s; rw [h] at this; rw [innerSaidT_loop, ← this]
  | case2 line s e s' h => have := bytesNext_trace c s; rw [h] at this; rw [innerSaidT_loop, ← this]
  | case3 line s b s' h line' hc before he =>
    have := bytesNext_trace c s; rw [h] at this; rw [innerSaidT_loop, ← this]
    dsimp only
    rw [innerSaidT, if_pos hc, if_pos he]
  | case4 line s b s' h line' hc before he =>
    have := bytesNext_trace c s; rw [h] at this; rw [innerSaidT_loop, ← this]
    dsimp only
    rw [innerSaidT, if_pos hc, if_neg he]
  | case5 line s b s' h line' hc ih =>
    have := bytesNext_trace c s; rw [h] at this; rw [innerSaidT_loop, ← this]
    dsimp only
    rw [innerSaidT, if_neg hc, ih]

end

theorem innerSaidT_ended {c : Cfg} {t : List Ev} (h : Ended c t) (line : Bytes) : innerSaidT c line t = some .noEnd := by
  induction t with
  | nil => rfl
  | cons ev t ih =>
    obtain ⟨e, rfl, hr⟩ := h ev (by simp)
    rw [innerSaidT, if_pos (retries_iff.2 hr)]
    exact ih fun ev hev => h ev (by simp [hev])

theorem innerSaidT_prefix {c : Cfg} {t t' : List Ev} {bs : Bytes} (h : Delivers c t bs t') (line : Bytes)
    (hno : ¬ HasCrLf (line ++ bs)) : innerSaidT c line t = innerSaidT c (line ++ bs) t' := by
  induction h generalizing line with
  | nil => simp
  | @byte b t t' bs _ ih =>
    have : ¬ HasCrLf (line ++ [b]) := fun hc => hno (by
      rw [show line ++ b :: bs = (line ++ [b]) ++ bs by simp]; exact hasCrLf_append_left hc)
    have hs := lineStep_none _ this
    unfold lineStep at hs
    split at hs
    · simp at hs
    · rename_i hn
      rw [innerSaidT, if_neg hn, ih (line ++ [b]) (by simpa using hno)]
      simp
  | @retry e t t' b bs hr _ ih =>
    rw [innerSaidT, if_pos (retries_iff.2 hr)]; exact ih line hno

theorem innerSaidT_lf {c : Cfg} {t t' : List Ev} {l : Bytes} (hl : l ≠ []) (h : Delivers c t [10] t') :
    innerSaidT c (l ++ [13]) t = (utf8Fail 0 l).map fun x => .notText x.1 x.2 := by
  generalize hb : ([10] : Bytes) = bs at h
  induction h with
  | nil => simp at hb
  | @byte b t t' bs h _ =>
    simp only [List.cons.injEq] at hb
    obtain ⟨rfl, rfl⟩ := hb
    rw [innerSaidT]
    have e : l ++ [13] ++ [10] = l ++ [13, 10] := by simp
    have h2 : (l ++ [13, 10]).length - 2 = l.length := by simp
    have h1 : (l ++ [13, 10]).length - 1 = l.length + 1 := by simp
    rw [e, h1, h2, if_pos (by simp), List.take_left, if_neg (by simpa using hl)]
  | @retry e t t' b bs hr _ ih =>
    rw [innerSaidT, if_pos (retries_iff.2 hr)]; exact ih hb

theorem innerSaidT_line {c : Cfg} {t t' : List Ev} {l : Bytes} (hl : l ≠ []) (hno : ¬ HasCrLf l)
    (h : Delivers c t (l ++ [13, 10]) t') : innerSaidT c [] t = (utf8Fail 0 l).map fun x => .notText x.1 x.2 := by
  rw [show l ++ [13, 10] = (l ++ [13]) ++ [10] by simp] at h
  obtain ⟨m, h1, h2⟩ := h.split
  rw [innerSaidT_prefix h1 [] (by simpa using not_hasCrLf_cr hno), List.nil_append]
  exact innerSaidT_lf hl h2

end HttpIo
