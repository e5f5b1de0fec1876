import Verif.Model.Parser
import Verif.Lemmas.Utf8
import Verif.Lemmas.Num

/-! The text parser, described on `pre ++ post` with the position at the end of `pre`. -/

namespace HttpIo
open Spec

theorem slice_ok_inv {s x : Bytes} {a b : Nat} (h : slice s a b = .ok x) :
    a ≤ b ∧ b ≤ s.length ∧ x = (s.drop a).take (b - a) := by
  unfold slice at h
  split at h
  · rename_i hc
    simp only [Bool.and_eq_true, decide_eq_true_eq] at hc
    simp only [Res.ok.injEq] at h
    exact ⟨hc.1.1.1, hc.1.1.2, h.symm⟩
  · simp at h

theorem slice_ne_err {s : Bytes} {a b : Nat} {e : Err} : slice s a b ≠ .err e := by
  unfold slice; split <;> simp

theorem sliceFrom_ne_err {s : Bytes} {a : Nat} {e : Err} : sliceFrom s a ≠ .err e := slice_ne_err

theorem sliceFrom_ok_inv {s x : Bytes} {a : Nat} (h : sliceFrom s a = .ok x) :
    a ≤ s.length ∧ x = s.drop a := by
  have := slice_ok_inv h
  refine ⟨this.1, ?_⟩
  rw [this.2.2, List.take_of_length_le]
  simp

theorem slice_ascii1 {pre : Bytes} {b : UInt8} {rest : Bytes} (hb : b < 0x80)
    (hrest : validUtf8 rest = true) :
    slice (pre ++ b :: rest) pre.length (pre.length + 1) = .ok [b] := by
  have h1 : validUtf8 ([b] ++ rest) = true := by
    simpa [validUtf8_cons_ascii hb] using hrest
  simpa using slice_append3 (a := pre) (b := [b]) h1 hrest

theorem all_takeWhile {α : Type} (p : α → Bool) (l : List α) : ∀ a ∈ l.takeWhile p, p a = true := by
  induction l with
  | nil => simp
  | cons x xs ih =>
    intro a ha
    rw [List.takeWhile_cons] at ha
    split at ha
    · rcases List.mem_cons.1 ha with rfl | ha
      · assumption
      · exact ih a ha
    · simp at ha

theorem takeWhile_self {α : Type} (p : α → Bool) (l : List α) (h : ∀ a ∈ l, p a = true) :
    l.takeWhile p = l := by
  induction l with
  | nil => rfl
  | cons x xs ih =>
    rw [List.takeWhile_cons, if_pos (h x (by simp)), ih (fun a ha => h a (by simp [ha]))]

namespace Parser

theorem expect_append {pre e post : Bytes} (he : e ≠ []) (h1 : validUtf8 (e ++ post) = true)
    (h2 : validUtf8 post = true) :
    expect ⟨pre ++ (e ++ post), pre.length⟩ e =
      (.ok (), ⟨pre ++ (e ++ post), pre.length + e.length⟩) := by
  unfold expect
  have hlt : ¬ (pre.length ≥ (pre ++ (e ++ post)).length) := by
    have : 0 < e.length := List.length_pos_iff.2 he
    simp; omega
  have hmin : min (pre ++ (e ++ post)).length (pre.length + e.length) = pre.length + e.length := by
    simp
  simp only [hlt, if_false, hmin, slice_append3 h1 h2, ne_eq, not_true_eq_false]

theorem expect_ok_inv {p p' : Parser} {e : Bytes} (h : p.expect e = (.ok (), p')) :
    (∃ rest, p.s.drop p.position = e ++ rest) ∧ p.position < p.s.length ∧
      p' = ⟨p.s, p.position + e.length⟩ := by
  unfold expect at h
  split at h
  · simp at h
  · rename_i hlt
    split at h
    · rename_i actual hs
      split at h
      · simp at h
      · rename_i hne
        simp only [ne_eq, Decidable.not_not] at hne
        subst hne
        obtain ⟨h1, h2, h3⟩ := slice_ok_inv hs
        refine ⟨?_, by omega, by simpa using h.symm⟩
        refine ⟨(p.s.drop p.position).drop (min p.s.length (p.position + actual.length) - p.position), ?_⟩
        conv => rhs; lhs; rw [h3]
        rw [List.take_append_drop]
    · rename_i hs; exact absurd hs slice_ne_err
    · simp at h

theorem parseDigit_append {pre rest : Bytes} {b : UInt8} (hb : b < 0x80) (hr : validUtf8 rest = true) :
    parseDigit ⟨pre ++ b :: rest, pre.length⟩ =
      (parseU32 [b], ⟨pre ++ b :: rest, pre.length + 1⟩) := by
  unfold parseDigit
  have hlt : ¬ (pre.length ≥ (pre ++ b :: rest).length) := by simp
  simp only [hlt, if_false, slice_ascii1 hb hr]

theorem parseDigit_ok_inv {p p' : Parser} {n : Nat} (h : p.parseDigit = (.ok n, p')) :
    ∃ b rest, p.s.drop p.position = b :: rest ∧ DigitVal 10 b n ∧ p' = ⟨p.s, p.position + 1⟩ := by
  unfold parseDigit at h
  split at h
  · simp at h
  · rename_i hlt
    split at h
    · rename_i digit hs
      obtain ⟨h1, h2, h3⟩ := slice_ok_inv hs
      simp only [Prod.mk.injEq] at h
      cases hd : p.s.drop p.position with
      | nil =>
        have := congrArg List.length hd
        simp only [List.length_drop, List.length_nil] at this; omega
      | cons b rest =>
        rw [hd] at h3
        simp only [Nat.add_sub_cancel_left, List.take_succ_cons, List.take_zero] at h3
        subst h3
        refine ⟨b, rest, rfl, ?_, h.2.symm⟩
        have hp := h.1
        unfold parseU32 Res.ofOption at hp
        split at hp
        · rename_i a ha
          simp only [Res.ok.injEq] at hp
          subst hp
          have := (fromStrRadix_iff (by omega) (by omega)).1 ha
          rcases this.1 with hn | ⟨ds, hds, hn⟩
          · have hf := hn.toFrom
            cases hf with
            | cons hdv hf => cases hf; simpa using hdv
          · simp only [List.cons.injEq] at hds
            exact absurd hds.2.symm hn.ne_nil
        · simp at hp
    · rename_i hs; exact absurd hs slice_ne_err
    · simp at h

/-- `consume_whilespace` never panics on valid text and skips exactly the blanks. -/
theorem consumeWhitespace_eq (pre post : Bytes) (h : validUtf8 post = true) :
    consumeWhitespace ⟨pre ++ post, pre.length⟩ =
      (.ok (), ⟨pre ++ post, pre.length + (post.takeWhile isBlank).length⟩) := by
  induction post generalizing pre with
  | nil => unfold consumeWhitespace; simp
  | cons b rest ih =>
    unfold consumeWhitespace
    have hlt : pre.length < (pre ++ b :: rest).length := by simp
    simp only [hlt, if_true, sliceFrom_append h, startsWith]
    by_cases hb : isBlank b = true
    · have hb' : (List.isPrefixOf [32] (b :: rest) || List.isPrefixOf [9] (b :: rest)) = true := by
        simp only [isBlank, Bool.or_eq_true, beq_iff_eq] at hb
        simp only [List.isPrefixOf, Bool.and_true, Bool.or_eq_true, beq_iff_eq]
        rcases hb with hb | hb
        · left; exact hb.symm
        · right; exact hb.symm
      simp only [hb', if_true]
      have hlt8 : b < 0x80 := by
        simp only [isBlank, Bool.or_eq_true, beq_iff_eq] at hb
        rcases hb with hb | hb <;> subst hb <;> decide
      have hv : validUtf8 rest = true := by rwa [validUtf8_cons_ascii hlt8] at h
      have := ih (pre ++ [b]) hv
      simp only [List.append_assoc, List.singleton_append, List.length_append, List.length_singleton] at this
      rw [this]
      simp only [List.takeWhile_cons, hb, if_true, List.length_cons]
      congr 2
      omega
    · have hb' : (List.isPrefixOf [32] (b :: rest) || List.isPrefixOf [9] (b :: rest)) = false := by
        simp only [isBlank, Bool.or_eq_true, beq_iff_eq, not_or] at hb
        simp only [List.isPrefixOf, Bool.and_true, Bool.or_eq_false_iff, beq_eq_false_iff_ne, ne_eq]
        exact ⟨fun h => hb.1 h.symm, fun h => hb.2 h.symm⟩
      simp only [hb', Bool.false_eq_true, if_false]
      simp [List.takeWhile_cons, hb]

theorem takeWhile_dropWhile_blank_valid {post : Bytes} (h : validUtf8 post = true) :
    validUtf8 (post.dropWhile (fun b => !isBlank b)) = true := by
  cases hd : post.dropWhile (fun b => !isBlank b) with
  | nil => simp [validUtf8]
  | cons b rest =>
    have hb : isBlank b = true := by
      have := List.head?_dropWhile_not (p := fun b => !isBlank b) (l := post)
      rw [hd] at this
      simpa using this
    have hlt8 : b < 0x80 := by
      simp only [isBlank, Bool.or_eq_true, beq_iff_eq] at hb
      rcases hb with hb | hb <;> subst hb <;> decide
    have heq : post = post.takeWhile (fun b => !isBlank b) ++ b :: rest := by
      rw [← hd, List.takeWhile_append_dropWhile]
    rw [heq] at h
    have := validUtf8_split hlt8 _ _ h
    rw [validUtf8_cons_ascii hlt8]; exact this.2

/-- `parse_token` on valid, non-exhausted text: the bytes up to the first blank; blanks after it are skipped. -/
theorem parseToken_eq (pre post : Bytes) (hne : post ≠ []) (h : validUtf8 post = true) :
    parseToken ⟨pre ++ post, pre.length⟩ =
      (.ok (post.takeWhile (fun b => !isBlank b)),
        ⟨pre ++ post, pre.length + (post.takeWhile (fun b => !isBlank b)).length +
          ((post.dropWhile (fun b => !isBlank b)).takeWhile isBlank).length⟩) := by
  unfold parseToken
  have hlt : ¬ (pre.length ≥ (pre ++ post).length) := by
    have : 0 < post.length := List.length_pos_iff.2 hne
    simp; omega
  simp only [hlt, if_false, sliceFrom_append h]
  have hc := consumeWhitespace_eq (pre ++ post.takeWhile (fun b => !isBlank b))
    (post.dropWhile (fun b => !isBlank b)) (takeWhile_dropWhile_blank_valid h)
  rw [List.append_assoc, List.takeWhile_append_dropWhile, List.length_append] at hc
  rw [hc]

theorem parseToken_nil (pre : Bytes) : parseToken ⟨pre, pre.length⟩ = (.err .unexpectedEof, ⟨pre, pre.length⟩) := by
  unfold parseToken; simp

end Parser

theorem takeWhile_firstToken (s : Bytes) : FirstToken s (s.takeWhile (fun b => !Parser.isBlank b)) := by
  refine ⟨?_, ?_⟩
  · intro b hb
    have := all_takeWhile _ _ b hb
    simp only [Parser.isBlank, Bool.not_eq_true', Bool.or_eq_false_iff, beq_eq_false_iff_ne] at this
    exact this
  · cases hd : s.dropWhile (fun b => !Parser.isBlank b) with
    | nil =>
      left
      have := List.takeWhile_append_dropWhile (p := fun b => !Parser.isBlank b) (l := s)
      rw [hd] at this; simpa using this.symm
    | cons b rest =>
      right
      refine ⟨b, rest, ?_, ?_⟩
      · rw [← hd, List.takeWhile_append_dropWhile]
      · have := List.head?_dropWhile_not (p := fun b => !Parser.isBlank b) (l := s)
        rw [hd] at this
        simp [Parser.isBlank] at this
        exact Classical.or_iff_not_imp_left.2 this

theorem Spec.FirstToken.eq_takeWhile {s t : Bytes} (h : FirstToken s t) :
    t = s.takeWhile (fun b => !Parser.isBlank b) := by
  obtain ⟨h1, h2⟩ := h
  have hall : ∀ b ∈ t, (!Parser.isBlank b) = true := by
    intro b hb
    have := h1 b hb
    simp [Parser.isBlank, this.1, this.2]
  rcases h2 with rfl | ⟨b, rest, rfl, hb⟩
  · rw [takeWhile_self _ _ hall]
  · rw [List.takeWhile_append_of_pos hall]
    have : (!Parser.isBlank b) = false := by
      rcases hb with rfl | rfl <;> decide
    simp [List.takeWhile_cons, this]

theorem Spec.FirstToken.unique {s t t' : Bytes} (h : FirstToken s t) (h' : FirstToken s t') : t = t' := by
  rw [h.eq_takeWhile, h'.eq_takeWhile]

end HttpIo
