import Verif.Model.ReaderLaws
import Verif.Model.Text

/-!
`CrLfStream`: reading lines. `src/protocol.rs:216-263`.
-/

namespace HttpIo

section
variable {σ : Type} [LawfulReader σ]

theorem bytesNext_some_lt {c : Cfg} {s s' : σ} {r : Except Err UInt8}
    (h : bytesNext c s = (some r, s')) : (trace s').length < (trace s).length := by
  fun_induction bytesNext c s with
  | case1 => simp at h
  | case2 s b bs s1 hr =>
    simp only [Prod.mk.injEq] at h
    have := trace_of_data (by omega) (by simp) hr
    rw [this, ← h.2]; simp; omega
  | case3 s e s1 hr hret ih =>
    have := trace_lt_of_error (by omega) hr
    have := ih h
    omega
  | case4 s e s1 hr hret =>
    simp only [Prod.mk.injEq] at h
    have := trace_lt_of_error (by omega) hr
    rw [← h.2]; exact this

/-- The loop of `CrLfStream::inner_next` (`src/protocol.rs:239-257`); `line` is the bytes collected so far.
`Ok(None)` is the empty line, `Ok(Some(l))` a line, `Err` an I/O, UTF-8 or end-of-stream error. -/
def innerNextLoop (c : Cfg) (line : Bytes) (s : σ) : Except Err (Option Bytes) × σ :=
  match h : bytesNext c s with
  | (none, s') => (.error .unexpectedEof, s')
  | (some (.error e), s') => (.error e, s')
  | (some (.ok b), s') =>
    let line := line ++ [b]
    if line.length ≥ 2 ∧ line[line.length - 2]? = some 13 ∧ line[line.length - 1]? = some 10 then
      let before := line.take (line.length - 2)
      if before.isEmpty then (.ok none, s')
      else if validUtf8 before then (.ok (some before), s')
      else (.error .utf8, s')
    else innerNextLoop c line s'
termination_by (trace s).length
decreasing_by exact bytesNext_some_lt h

/-- `src/protocol.rs:239-257`. -/
def innerNext (c : Cfg) (s : σ) : Except Err (Option Bytes) × σ := innerNextLoop c [] s

/-- `Iterator::next` of `CrLfStream` (`src/protocol.rs:230-235`). -/
def crlfNext (c : Cfg) (s : σ) : Option (Except Err Bytes) × σ :=
  match innerNext c s with
  | (.error e, s') => (some (.error e), s')
  | (.ok none, s') => (none, s')
  | (.ok (some l), s') => (some (.ok l), s')

/-- `src/protocol.rs:259-262`. -/
def expectNext (c : Cfg) (s : σ) : Except Err Bytes × σ :=
  match innerNext c s with
  | (.error e, s') => (.error e, s')
  | (.ok none, s') => (.error .unexpectedEof, s')
  | (.ok (some l), s') => (.ok l, s')

/-! ### Progress: a line that is returned has been consumed. -/

theorem bytesNext_le {c : Cfg} {s s' : σ} {r : Option (Except Err UInt8)}
    (h : bytesNext c s = (r, s')) : (trace s').length ≤ (trace s).length := by
  cases r with
  | some r => exact Nat.le_of_lt (bytesNext_some_lt h)
  | none =>
    fun_induction bytesNext c s with
    | case1 s s1 hr =>
      simp only [Prod.mk.injEq, true_and] at h
      have hs := LawfulReader.read_step s 1 (by omega)
      rw [hr] at hs
      dsimp only at hs
      rcases hs.ok_inv with ⟨_, h2, h3⟩ | ⟨h1, _⟩
      · rw [← h, h2, h3]; simp
      · exact absurd rfl h1
    | case2 => simp at h
    | case3 s e s1 hr hret ih =>
      have := trace_lt_of_error (by omega) hr
      have := ih h
      omega
    | case4 => simp at h

theorem innerNextLoop_le {c : Cfg} {s s' : σ} {line : Bytes} {r : Except Err (Option Bytes)}
    (h : innerNextLoop c line s = (r, s')) : (trace s').length ≤ (trace s).length := by
  fun_induction innerNextLoop c line s with
  | case1 line s s1 hb => simp only [Prod.mk.injEq] at h; rw [← h.2]; exact bytesNext_le hb
  | case2 line s e s1 hb => simp only [Prod.mk.injEq] at h; rw [← h.2]; exact bytesNext_le hb
  | case3 line s b s1 hb => simp only [Prod.mk.injEq] at h; rw [← h.2]; exact bytesNext_le hb
  | case4 line s b s1 hb => simp only [Prod.mk.injEq] at h; rw [← h.2]; exact bytesNext_le hb
  | case5 line s b s1 hb => simp only [Prod.mk.injEq] at h; rw [← h.2]; exact bytesNext_le hb
  | case6 line s b s1 hb line' hc ih => exact Nat.le_trans (ih h) (bytesNext_le hb)

theorem innerNextLoop_ok_lt {c : Cfg} {s s' : σ} {line : Bytes} {r : Option Bytes}
    (h : innerNextLoop c line s = (.ok r, s')) : (trace s').length < (trace s).length := by
  fun_induction innerNextLoop c line s with
  | case1 => simp at h
  | case2 => simp at h
  | case3 line s b s1 hb => simp only [Prod.mk.injEq] at h; rw [← h.2]; exact bytesNext_some_lt hb
  | case4 line s b s1 hb => simp only [Prod.mk.injEq] at h; rw [← h.2]; exact bytesNext_some_lt hb
  | case5 => simp at h
  | case6 line s b s1 hb line' hc ih => exact Nat.lt_trans (ih h) (bytesNext_some_lt hb)

theorem innerNext_ok_lt {c : Cfg} {s s' : σ} {r : Option Bytes}
    (h : innerNext c s = (.ok r, s')) : (trace s').length < (trace s).length := innerNextLoop_ok_lt h

theorem crlfNext_ok_lt {c : Cfg} {s s' : σ} {l : Bytes}
    (h : crlfNext c s = (some (.ok l), s')) : (trace s').length < (trace s).length := by
  unfold crlfNext at h
  split at h
  · simp at h
  · simp at h
  · rename_i hi
    simp only [Prod.mk.injEq] at h
    rw [← h.2]; exact innerNext_ok_lt hi

theorem crlfNext_le {c : Cfg} {s s' : σ} {r : Option (Except Err Bytes)}
    (h : crlfNext c s = (r, s')) : (trace s').length ≤ (trace s).length := by
  unfold crlfNext at h
  split at h
  · rename_i hi; simp only [Prod.mk.injEq] at h; rw [← h.2]; exact innerNextLoop_le hi
  · rename_i hi; simp only [Prod.mk.injEq] at h; rw [← h.2]; exact innerNextLoop_le hi
  · rename_i hi; simp only [Prod.mk.injEq] at h; rw [← h.2]; exact innerNextLoop_le hi

theorem expectNext_ok_lt {c : Cfg} {s s' : σ} {l : Bytes}
    (h : expectNext c s = (.ok l, s')) : (trace s').length < (trace s).length := by
  unfold expectNext at h
  split at h
  · simp at h
  · simp at h
  · rename_i hi
    simp only [Prod.mk.injEq] at h
    rw [← h.2]; exact innerNext_ok_lt hi

end

end HttpIo
