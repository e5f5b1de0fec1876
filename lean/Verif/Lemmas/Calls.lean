import Verif.Spec.Body
import Verif.Model.ReaderLaws

/-! Schedules of `read` calls on lawful readers. -/

namespace HttpIo
open Spec

section
variable {σ : Type}

theorem calls_cons [Reader σ] (s : σ) (n : Nat) (ns : List Nat) {r : Except Err Bytes} {s' : σ}
    (h : read s n = (r, s')) : calls s (n :: ns) = (r :: (calls s' ns).1, (calls s' ns).2) := by
  rw [calls, h]

theorem calls_length [Reader σ] (s : σ) (ns : List Nat) : (calls s ns).1.length = ns.length := by
  induction ns generalizing s with
  | nil => rfl
  | cons n ns ih => rw [calls]; simp [ih]

theorem Spec.Pieces.nil : Pieces [] [] := ⟨[], rfl, by simp, rfl⟩

theorem Spec.Pieces.cons {rs : List (Except Err Bytes)} {x p : Bytes} (hx : x ≠ []) (h : Pieces rs p) :
    Pieces (.ok x :: rs) (x ++ p) := by
  obtain ⟨xs, rfl, h2, h3⟩ := h
  exact ⟨x :: xs, rfl, by simpa using ⟨hx, h2⟩, by simp [h3]⟩

theorem received_append (a b : List (Except Err Bytes)) : received (a ++ b) = received a ++ received b := by
  induction a with
  | nil => rfl
  | cons r a ih => cases r <;> simp [received, ih]

theorem received_map (xs : List Bytes) : received (xs.map .ok) = xs.flatten := by
  induction xs with
  | nil => rfl
  | cons x xs ih => simp [received, ih]

theorem Spec.Pieces.received {rs : List (Except Err Bytes)} {p : Bytes} (h : Pieces rs p) : received rs = p := by
  obtain ⟨xs, rfl, _, h3⟩ := h
  rw [received_map, h3]

theorem received_replicate (k : Nat) : received (List.replicate k (.ok [])) = [] := by
  induction k with
  | zero => rfl
  | succ k ih => simp [List.replicate_succ, received, ih]

variable [LawfulReader σ]

theorem read_nil {s : σ} {n : Nat} (hn : 0 < n) (h : trace s = []) :
    (read s n).1 = .ok [] ∧ trace (read s n).2 = [] := by
  have := LawfulReader.read_step s n hn
  rcases hr : read s n with ⟨r, s'⟩
  rw [hr, h] at this
  cases r with
  | error e => simpa using this.error_inv
  | ok bs =>
    rcases this.ok_inv with ⟨h1, _, h3⟩ | ⟨h1, _, h3⟩
    · exact ⟨by rw [h1], h3⟩
    · have h4 := congrArg List.length h3
      have := List.length_pos_iff.2 h1
      simp at h4
      omega

theorem read_bytes {s : σ} {n : Nat} {b : UInt8} {bs : Bytes} {t : List Ev} (hn : 0 < n)
    (h : trace s = (b :: bs).map .byte ++ t) (ht : t = [] ∨ ∃ e t', t = .fault e :: t') :
    ∃ x y, x ≠ [] ∧ b :: bs = x ++ y ∧ (read s n).1 = .ok x ∧ trace (read s n).2 = y.map .byte ++ t := by
  have := LawfulReader.read_step s n hn
  rcases hr : read s n with ⟨r, s'⟩
  rw [hr, h] at this
  cases r with
  | error e => simpa using this.error_inv
  | ok x =>
    rcases this.ok_inv with ⟨_, h2, _⟩ | ⟨h1, _, h3⟩
    · simp at h2
    · dsimp only at h3 ⊢
      have key : ∀ (x u : Bytes) (w : List Ev), u.map Ev.byte ++ t = x.map .byte ++ w → ∃ y, u = x ++ y ∧ w = y.map .byte ++ t := by
        intro x
        induction x with
        | nil => intro u w hw; exact ⟨u, rfl, by simpa using hw.symm⟩
        | cons a x ih =>
          intro u w hw
          cases u with
          | nil =>
            rcases ht with rfl | ⟨e, t', rfl⟩
            · simp at hw
            · simp at hw
          | cons v u =>
            simp only [List.map_cons, List.cons_append, List.cons.injEq, Ev.byte.injEq] at hw
            obtain ⟨rfl, hw⟩ := hw
            obtain ⟨y, rfl, hy⟩ := ih u w hw
            exact ⟨y, rfl, hy⟩
      obtain ⟨y, hy1, hy2⟩ := key x (b :: bs) _ h3
      exact ⟨x, y, h1, hy1, rfl, hy2⟩

theorem read_fault {s : σ} {n : Nat} {e : Err} {t : List Ev} (hn : 0 < n) (h : trace s = .fault e :: t) :
    (read s n).1 = .error e ∧ trace (read s n).2 = t := by
  have := LawfulReader.read_step s n hn
  rcases hr : read s n with ⟨r, s'⟩
  rw [hr, h] at this
  cases r with
  | error e' =>
    have := this.error_inv
    simp only [List.cons.injEq, Ev.fault.injEq] at this
    exact ⟨by rw [this.1], this.2.symm⟩
  | ok bs =>
    rcases this.ok_inv with ⟨_, h2, _⟩ | ⟨h1, _, h3⟩
    · simp at h2
    · cases bs with
      | nil => exact absurd rfl h1
      | cons b bs => simp at h3

theorem calls_nil {s : σ} {sizes : List Nat} (hp : Positive sizes) (h : trace s = []) :
    (calls s sizes).1 = List.replicate sizes.length (.ok []) ∧ trace (calls s sizes).2 = [] := by
  induction sizes generalizing s with
  | nil => exact ⟨rfl, h⟩
  | cons n ns ih =>
    obtain ⟨h1, h2⟩ := read_nil (hp n (by simp)) h
    obtain ⟨h3, h4⟩ := ih (fun m hm => hp m (by simp [hm])) h2
    rw [calls]
    exact ⟨by rw [h1, h3]; rfl, h4⟩

theorem Spec.Positive.tail {n : Nat} {ns : List Nat} (h : Positive (n :: ns)) : Positive ns :=
  fun m hm => h m (by simp [hm])

/-- A reader whose pending events are just bytes yields them. -/
theorem yields_of_trace {s : σ} {bs : Bytes} (h : trace s = bs.map .byte) : Yields s bs := by
  intro sizes hp
  induction sizes generalizing s bs with
  | nil => exact .inl ⟨[], .nil, by simp, by simp⟩
  | cons n ns ih =>
    cases bs with
    | nil =>
      right
      obtain ⟨h1, _⟩ := calls_nil hp (s := s) h
      exact ⟨[], ns.length, by rw [h1]; rfl, .nil⟩
    | cons b bs =>
      obtain ⟨x, y, hx, hxy, h1, h2⟩ := read_bytes (s := s) (b := b) (bs := bs) (t := []) (hp n (by simp)) (by rw [h]; simp) (.inl rfl)
      have hlen : y.length + 1 ≤ (b :: bs).length := by
        rw [hxy, List.length_append]
        have := List.length_pos_iff.2 hx
        omega
      rw [calls, h1, hxy]
      rcases ih (s := (read s n).2) (bs := y) (by simpa using h2) hp.tail with ⟨p, h3, h4, h5⟩ | ⟨rs, k, h3, h4⟩
      · left
        refine ⟨x ++ p, h3.cons hx, (List.prefix_append_right_inj x).2 h4, ?_⟩
        rw [← hxy]; simp only [List.length_cons] at hlen ⊢; omega
      · right
        exact ⟨.ok x :: rs, k, by rw [h3]; rfl, h4.cons hx⟩

/-- A reader whose pending events are bytes and then a fault. -/
theorem failsAfter_of_trace {s : σ} {bs : Bytes} {e : Err} {t : List Ev}
    (h : trace s = bs.map .byte ++ .fault e :: t) : FailsAfter s bs e := by
  intro sizes hp
  induction sizes generalizing s bs with
  | nil => exact .inl ⟨[], .nil, by simp, by simp⟩
  | cons n ns ih =>
    cases bs with
    | nil =>
      right
      obtain ⟨h1, _⟩ := read_fault (hp n (by simp)) (s := s) h
      rw [calls, h1]
      exact ⟨[], _, rfl, .nil⟩
    | cons b bs =>
      obtain ⟨x, y, hx, hxy, h1, h2⟩ := read_bytes (hp n (by simp)) h (.inr ⟨_, _, rfl⟩)
      have hlen : y.length + 1 ≤ (b :: bs).length := by
        rw [hxy, List.length_append]
        have := List.length_pos_iff.2 hx
        omega
      rw [calls, h1, hxy]
      rcases ih (s := (read s n).2) (bs := y) (by simpa using h2) hp.tail with ⟨p, h3, h4, h5⟩ | ⟨rs, k, h3, h4⟩
      · left
        refine ⟨x ++ p, h3.cons hx, (List.prefix_append_right_inj x).2 h4, ?_⟩
        rw [← hxy]; simp only [List.length_cons] at hlen ⊢; omega
      · right
        exact ⟨.ok x :: rs, k, by rw [h3]; rfl, h4.cons hx⟩

/-- ... and if nothing follows the fault, the caller that goes on reading sees end of stream for ever. -/
theorem failsAfter_then_ends {s : σ} {bs : Bytes} {e : Err} (h : trace s = bs.map .byte ++ [.fault e])
    {sizes : List Nat} (hp : Positive sizes) :
    (∃ p, Pieces (calls s sizes).1 p ∧ p <+: bs ∧ sizes.length ≤ bs.length) ∨
    (∃ rs k, (calls s sizes).1 = rs ++ .error e :: List.replicate k (.ok []) ∧ Pieces rs bs) := by
  induction sizes generalizing s bs with
  | nil => exact .inl ⟨[], .nil, by simp, by simp⟩
  | cons n ns ih =>
    cases bs with
    | nil =>
      right
      obtain ⟨h1, h2⟩ := read_fault (hp n (by simp)) (s := s) h
      rw [calls, h1]
      exact ⟨[], ns.length, by rw [(calls_nil hp.tail h2).1]; rfl, .nil⟩
    | cons b bs =>
      obtain ⟨x, y, hx, hxy, h1, h2⟩ := read_bytes (hp n (by simp)) h (.inr ⟨_, _, rfl⟩)
      have hlen : y.length + 1 ≤ (b :: bs).length := by
        rw [hxy, List.length_append]
        have := List.length_pos_iff.2 hx
        omega
      rw [calls, h1, hxy]
      rcases ih (s := (read s n).2) (bs := y) (by simpa using h2) hp.tail with ⟨p, h3, h4, h5⟩ | ⟨rs, k, h3, h4⟩
      · left
        refine ⟨x ++ p, h3.cons hx, (List.prefix_append_right_inj x).2 h4, ?_⟩
        rw [← hxy]; simp only [List.length_cons] at hlen ⊢; omega
      · right
        exact ⟨.ok x :: rs, k, by rw [h3]; rfl, h4.cons hx⟩

/-- What has been seen and what is pending make up the stream, and end of stream is only reported at its end. -/
theorem calls_seen (s : σ) {sizes : List Nat} (hp : Positive sizes) :
    trace s = seen (calls s sizes).1 ++ trace (calls s sizes).2 ∧
    (.ok [] ∈ (calls s sizes).1 → trace (calls s sizes).2 = []) ∧
    (trace (calls s sizes).2 ≠ [] → sizes.length ≤ (seen (calls s sizes).1).length) := by
  induction sizes generalizing s with
  | nil => simp [calls, seen]
  | cons n ns ih =>
    obtain ⟨h1, h2, h3⟩ := ih (read s n).2 hp.tail
    have hs := LawfulReader.read_step s n (hp n (by simp))
    rw [calls]
    dsimp only
    rcases hr : (read s n).1 with e | bs
    · rw [hr] at hs
      refine ⟨by rw [hs.error_inv, h1]; rfl, ?_, ?_⟩
      · intro hm; simp only [List.mem_cons, reduceCtorEq, false_or] at hm; exact h2 hm
      · intro hne; have := h3 hne; simp only [seen, List.length_cons]; omega
    · rw [hr] at hs
      refine ⟨by rw [hs.split, seen, List.append_assoc, ← h1], ?_, ?_⟩
      · intro hm
        simp only [List.mem_cons, Except.ok.injEq] at hm
        rcases hm with hm | hm
        · rcases hs.ok_inv with ⟨_, _, h6⟩ | ⟨h5, _⟩
          · exact (calls_nil hp.tail h6).2
          · exact absurd hm.symm h5
        · exact h2 hm
      · intro hne
        have := h3 hne
        rcases hs.ok_inv with ⟨_, _, h6⟩ | ⟨h5, _⟩
        · exact absurd (calls_nil hp.tail h6).2 hne
        · have := List.length_pos_iff.2 h5
          simp only [seen, List.length_append, List.length_map, List.length_cons]; omega

end

end HttpIo
