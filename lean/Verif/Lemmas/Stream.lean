import Verif.Lemmas.Trace
import Verif.Spec.Stream

/-! Lemmas on `Delivers`, and line reading on delivered bytes. -/

namespace HttpIo
open Spec

theorem retries_iff {c : Cfg} {e : Err} : c.retries e = true ↔ Retried c e := by
  unfold Cfg.retries Retried Err.isInterrupted
  cases c.std <;> simp
  split <;> simp_all

theorem Spec.Delivers.append {c : Cfg} {t m t' : List Ev} {a b : Bytes}
    (h1 : Delivers c t a m) (h2 : Delivers c m b t') : Delivers c t (a ++ b) t' := by
  induction h1 with
  | nil => exact h2
  | byte x _ ih => exact .byte x (ih h2)
  | retry hr _ ih => exact .retry hr (ih h2)

theorem Spec.Delivers.split {c : Cfg} {t t' : List Ev} {a b : Bytes}
    (h : Delivers c t (a ++ b) t') : ∃ m, Delivers c t a m ∧ Delivers c m b t' := by
  generalize hab : a ++ b = ab at h
  induction h generalizing a with
  | nil t =>
    simp only [List.append_eq_nil_iff] at hab
    rw [hab.1, hab.2]; exact ⟨t, .nil t, .nil t⟩
  | @byte x t t' bs h ih =>
    cases a with
    | nil => simp only [List.nil_append] at hab; subst hab; exact ⟨_, .nil _, .byte x h⟩
    | cons y a =>
      simp only [List.cons_append, List.cons.injEq] at hab
      obtain ⟨m, h1, h2⟩ := ih hab.2
      rw [hab.1]; exact ⟨m, .byte x h1, h2⟩
  | @retry e t t' x bs hr h ih =>
    cases a with
    | nil => simp only [List.nil_append] at hab; subst hab; exact ⟨_, .nil _, .retry hr h⟩
    | cons y a =>
      simp only [List.cons_append, List.cons.injEq] at hab
      obtain ⟨m, h1, h2⟩ := ih (a := y :: a) (by simp [hab])
      exact ⟨m, .retry hr h1, h2⟩

theorem delivers_map (c : Cfg) (bs : Bytes) (t : List Ev) : Delivers c (bs.map .byte ++ t) bs t := by
  induction bs with
  | nil => exact .nil t
  | cons b bs ih => exact .byte b ih

theorem delivers_map' (c : Cfg) (bs : Bytes) : Delivers c (bs.map .byte) bs [] := by
  simpa using delivers_map c bs []

theorem Spec.Delivers.suffix {c : Cfg} {t t' : List Ev} {bs : Bytes} (h : Delivers c t bs t') :
    ∃ pre, t = pre ++ t' ∧ ∀ u, Delivers c (pre ++ u) bs u := by
  induction h with
  | nil t => exact ⟨[], rfl, fun u => .nil u⟩
  | byte b _ ih => obtain ⟨p, h1, h2⟩ := ih; exact ⟨.byte b :: p, by simp [h1], fun u => .byte b (h2 u)⟩
  | @retry e t t' b bs hr _ ih =>
    obtain ⟨p, h1, h2⟩ := ih; exact ⟨.fault e :: p, by simp [h1], fun u => .retry hr (h2 u)⟩

theorem Spec.Delivers.length {c : Cfg} {t t' : List Ev} {bs : Bytes} (h : Delivers c t bs t') :
    bs.length + t'.length ≤ t.length := by
  induction h with
  | nil => simp
  | byte => simp; omega
  | retry => simp at *; omega

/-- Two deliveries from the same events are comparable. -/
theorem Spec.Delivers.unique {c : Cfg} {t t1 t2 : List Ev} {a x : Bytes}
    (h1 : Delivers c t a t1) (h2 : Delivers c t (a ++ x) t2) : Delivers c t1 x t2 := by
  induction h1 generalizing t2 with
  | nil => simpa using h2
  | byte b _ ih => cases h2 with | byte _ h2 => exact ih h2
  | retry hr _ ih => cases h2 with | retry _ h2 => exact ih h2

/-- What is delivered up to the end is determined. -/
theorem Spec.Delivers.ended_unique {c : Cfg} {t t1 t2 : List Ev} {a b : Bytes} (ha : Delivers c t a t1) (hea : Ended c t1)
    (hb : Delivers c t b t2) (heb : Ended c t2) : a = b := by
  have hnb : ∀ {t x} {b : UInt8} {y}, Delivers c t (b :: y) x → ¬ Ended c t := by
    intro t x b y h hn
    generalize hbs : b :: y = bs at h
    induction h with
    | nil => simp at hbs
    | byte b' _ _ => obtain ⟨e, h, _⟩ := hn _ (List.mem_cons_self ..); simp at h
    | retry _ _ ih => exact ih (fun ev hev => hn ev (List.mem_cons_of_mem _ hev)) hbs
  induction ha generalizing b t2 with
  | nil t =>
    cases b with
    | nil => rfl
    | cons b0 b => exact absurd hea (hnb hb)
  | @byte b0 t t' bs hd' ih =>
    cases hb with
    | nil => exact absurd heb (hnb (.byte b0 hd'))
    | byte _ hb => rw [ih hea hb heb]
  | @retry e t t' b0 bs hr hd' ih =>
    cases hb with
    | nil => exact absurd heb (hnb (.retry hr hd'))
    | retry _ hb => exact ih hea hb heb

/-! ### Lines -/

theorem lineStep_crlf (x : Bytes) : lineStep (x ++ [13, 10]) =
    some (if x.isEmpty then .ok none else if validUtf8 x then .ok (some x) else .error .utf8) := by
  unfold lineStep
  have h2 : (x ++ [13, 10]).length - 2 = x.length := by simp
  have h1 : (x ++ [13, 10]).length - 1 = x.length + 1 := by simp
  rw [h1, h2, if_pos]
  · simp
  · simp

theorem lineStep_none (l : Bytes) (h : ¬ HasCrLf l) : lineStep l = none := by
  unfold lineStep
  rw [if_neg]
  rintro ⟨hlen, h1, h2⟩
  apply h
  refine ⟨l.take (l.length - 2), [], ?_⟩
  have : l = l.take (l.length - 2) ++ l.drop (l.length - 2) := by simp
  have hd : l.drop (l.length - 2) = [13, 10] := by
    rw [List.drop_eq_getElem_cons (by omega), List.drop_eq_getElem_cons (by omega), List.drop_of_length_le (by omega)]
    have e1 := List.getElem?_eq_getElem (l := l) (i := l.length - 2) (by omega)
    have e2 := List.getElem?_eq_getElem (l := l) (i := l.length - 1) (by omega)
    rw [h1] at e1; rw [h2] at e2
    have e3 : l.length - 2 + 1 = l.length - 1 := by omega
    simp only [e3]
    rw [← Option.some.inj e1, ← Option.some.inj e2]
  rw [hd] at this
  simpa using this.symm

theorem hasCrLf_append_left {a b : Bytes} (h : HasCrLf a) : HasCrLf (a ++ b) :=
  List.IsInfix.trans h (List.prefix_append a b).isInfix

theorem hasCrLf_append_right {a b : Bytes} (h : HasCrLf b) : HasCrLf (a ++ b) :=
  List.IsInfix.trans h (List.suffix_append a b).isInfix

/-- A text without CR LF followed by CR has no CR LF either. -/
theorem not_hasCrLf_cr {l : Bytes} (h : ¬ HasCrLf l) : ¬ HasCrLf (l ++ [13]) := by
  rintro ⟨p, q, hpq⟩
  rcases List.eq_nil_or_concat q with rfl | ⟨q', x, rfl⟩
  · have := congrArg List.getLast? hpq
    simp at this
  · apply h
    refine ⟨p, q', ?_⟩
    have := congrArg List.dropLast hpq
    simpa [← List.append_assoc] using this

/-- The outcome of a line read whose bytes before the CR LF are `l`. -/
def lineOutcome (l : Bytes) : Except Err (Option Bytes) :=
  if l.isEmpty then .ok none else if validUtf8 l then .ok (some l) else .error .utf8

theorem innerNextT_prefix {c : Cfg} {t t' : List Ev} {bs : Bytes} (h : Delivers c t bs t') (line : Bytes)
    (hno : ¬ HasCrLf (line ++ bs)) : innerNextT c line t = innerNextT c (line ++ bs) t' := by
  induction h generalizing line with
  | nil => simp
  | @byte b t t' bs _ ih =>
    have : ¬ HasCrLf (line ++ [b]) := fun hc => hno (by
      rw [show line ++ b :: bs = (line ++ [b]) ++ bs by simp]; exact hasCrLf_append_left hc)
    rw [innerNextT, lineStep_none _ this]
    dsimp only
    rw [ih (line ++ [b]) (by simpa using hno)]
    simp
  | @retry e t t' b bs hr _ ih =>
    rw [innerNextT, if_pos (retries_iff.2 hr)]; exact ih line hno

theorem innerNextT_retry_lf {c : Cfg} {t t' : List Ev} {l : Bytes} (h : Delivers c t [10] t') :
    innerNextT c (l ++ [13]) t = (lineOutcome l, t') := by
  generalize hb : ([10] : Bytes) = bs at h
  induction h with
  | nil => simp at hb
  | @byte b t t' bs h _ =>
    simp only [List.cons.injEq] at hb
    obtain ⟨rfl, rfl⟩ := hb
    cases h
    rw [innerNextT]
    rw [show l ++ [13] ++ [10] = l ++ [13, 10] by simp, lineStep_crlf]
    rfl
  | @retry e t t' b bs hr _ ih =>
    rw [innerNextT, if_pos (retries_iff.2 hr)]; exact ih hb

theorem innerNextT_line {c : Cfg} {t t' : List Ev} {l : Bytes} (hno : ¬ HasCrLf l)
    (h : Delivers c t (l ++ [13, 10]) t') : innerNextT c [] t = (lineOutcome l, t') := by
  rw [show l ++ [13, 10] = (l ++ [13]) ++ [10] by simp] at h
  obtain ⟨m, h1, h2⟩ := h.split
  rw [innerNextT_prefix h1 [] (by simpa using not_hasCrLf_cr hno), List.nil_append]
  exact innerNextT_retry_lf h2

theorem innerNextT_ended {c : Cfg} {t : List Ev} (h : Ended c t) (line : Bytes) :
    innerNextT c line t = (.error .unexpectedEof, []) := by
  induction t with
  | nil => rfl
  | cons ev t ih =>
    obtain ⟨e, rfl, hr⟩ := h ev (by simp)
    rw [innerNextT, if_pos (retries_iff.2 hr)]
    exact ih fun ev hev => h ev (by simp [hev])

theorem innerNextT_fails {c : Cfg} {t t' : List Ev} {e : Err} (h : Fails c t e t') (line : Bytes) :
    innerNextT c line t = (.error e, t') := by
  obtain ⟨hn, pre, rfl, hp⟩ := h
  induction pre with
  | nil => simp only [List.nil_append]; rw [innerNextT, if_neg (mt retries_iff.1 hn)]
  | cons ev pre ih =>
    obtain ⟨e', rfl, hr⟩ := hp ev (by simp)
    rw [List.cons_append, innerNextT, if_pos (retries_iff.2 hr)]
    exact ih fun ev hev => hp ev (by simp [hev])

/-- Every trace delivers some bytes and then ends or fails. -/
theorem delivers_all (c : Cfg) (t : List Ev) :
    ∃ l m, Delivers c t l m ∧ (Ended c m ∨ ∃ e t', Fails c m e t') := by
  induction t with
  | nil => exact ⟨[], [], .nil _, .inl (by simp [Ended])⟩
  | cons ev t ih =>
    obtain ⟨l, m, h1, h2⟩ := ih
    cases ev with
    | byte b => exact ⟨b :: l, m, .byte b h1, h2⟩
    | fault e =>
      by_cases hr : Retried c e
      · cases l with
        | nil =>
          cases h1
          refine ⟨[], _, .nil _, ?_⟩
          rcases h2 with h2 | ⟨e', t', hn, pre, rfl, hp⟩
          · left
            intro ev hev
            simp only [List.mem_cons] at hev
            rcases hev with rfl | hev
            · exact ⟨e, rfl, hr⟩
            · exact h2 ev hev
          · right
            refine ⟨e', t', hn, .fault e :: pre, rfl, ?_⟩
            intro ev hev
            simp only [List.mem_cons] at hev
            rcases hev with rfl | hev
            · exact ⟨e, rfl, hr⟩
            · exact hp ev hev
        | cons b l => exact ⟨b :: l, m, .retry hr h1, h2⟩
      · exact ⟨[], _, .nil _, .inr ⟨e, t, hr, [], rfl, by simp [Ended]⟩⟩

theorem hasCrLf_first {l : Bytes} (h : HasCrLf l) : ∃ a b, l = a ++ [13, 10] ++ b ∧ ¬ HasCrLf a := by
  obtain ⟨p, q, hpq⟩ := h
  have main : ∀ n (p q : Bytes), p.length ≤ n → p ++ [13, 10] ++ q = l → ∃ a b, l = a ++ [13, 10] ++ b ∧ ¬ HasCrLf a := by
    intro n
    induction n with
    | zero =>
      intro p q hp he
      have : p = [] := List.eq_nil_of_length_eq_zero (by omega)
      subst this
      exact ⟨[], q, he.symm, by simp [HasCrLf]⟩
    | succ n ih =>
      intro p q hp he
      by_cases hc : HasCrLf p
      · obtain ⟨p1, p2, h12⟩ := hc
        refine ih p1 (p2 ++ [13, 10] ++ q) ?_ ?_
        · rw [← h12] at hp; simp at hp; omega
        · rw [← he, ← h12]; simp
      · exact ⟨p, q, he.symm, hc⟩
  exact main p.length p q (Nat.le_refl _) hpq

section
variable {σ : Type} [LawfulReader σ]

theorem innerNext_eq {c : Cfg} {s : σ} {r : Except Err (Option Bytes)} {t : List Ev}
    (h : innerNextT c [] (trace s) = (r, t)) : (innerNext c s).1 = r ∧ trace (innerNext c s).2 = t := by
  have := innerNextLoop_trace c [] s
  rw [h] at this
  simpa [innerNext] using this

end

end HttpIo
