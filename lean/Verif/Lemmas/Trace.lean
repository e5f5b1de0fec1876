import Verif.Model.Body

/-!
The reading operations as functions of the trace: what they return and what they leave pending depends only on
the events of the transport, not on how they are split into reads.
-/

namespace HttpIo

/-- `bytesNext` on events. -/
def bytesNextT (c : Cfg) : List Ev → Option (Except Err UInt8) × List Ev
  | [] => (none, [])
  | .byte b :: t => (some (.ok b), t)
  | .fault e :: t => if c.retries e then bytesNextT c t else (some (.error e), t)

/-- `readExact` on events. -/
def readExactT (c : Cfg) : Nat → List Ev → Except Err Bytes × List Ev
  | 0, t => (.ok [], t)
  | _ + 1, [] => (.error c.eofErr, [])
  | n + 1, .byte b :: t =>
    match readExactT c n t with
    | (.ok more, t') => (.ok (b :: more), t')
    | (.error e, t') => (.error e, t')
  | n + 1, .fault e :: t => if c.retries e then readExactT c (n + 1) t else (.error e, t)

/-- What `innerNextLoop` does once `line` has grown by a byte. -/
def lineStep (line : Bytes) : Option (Except Err (Option Bytes)) :=
  if line.length ≥ 2 ∧ line[line.length - 2]? = some 13 ∧ line[line.length - 1]? = some 10 then
    let before := line.take (line.length - 2)
    some (if before.isEmpty then .ok none else if validUtf8 before then .ok (some before) else .error .utf8)
  else none

/-- `innerNextLoop` on events. -/
def innerNextT (c : Cfg) : Bytes → List Ev → Except Err (Option Bytes) × List Ev
  | _, [] => (.error .unexpectedEof, [])
  | line, .byte b :: t =>
    match lineStep (line ++ [b]) with
    | some r => (r, t)
    | none => innerNextT c (line ++ [b]) t
  | line, .fault e :: t => if c.retries e then innerNextT c line t else (.error e, t)

section
variable {σ : Type} [LawfulReader σ]

theorem bytesNext_trace (c : Cfg) (s : σ) :
    ((bytesNext c s).1, trace (bytesNext c s).2) = bytesNextT c (trace s) := by
  fun_induction bytesNext c s with
  | case1 s s' h =>
    have hs := LawfulReader.read_step s 1 (by omega)
    rw [h] at hs
    rcases hs.ok_inv with ⟨_, h2, h3⟩ | ⟨h1, _⟩
    · dsimp only at h2 h3 ⊢; rw [h2, h3]; rfl
    · exact absurd rfl h1
  | case2 s b bs s' h =>
    have hs := LawfulReader.read_step s 1 (by omega)
    rw [h] at hs
    rcases hs.ok_inv with ⟨h1, _⟩ | ⟨_, h2, h3⟩
    · simp at h1
    · simp only [List.length_cons] at h2
      have : bs = [] := List.eq_nil_of_length_eq_zero (by omega)
      subst this
      dsimp only at h3 ⊢; rw [h3]; rfl
  | case3 s e s' h hret ih =>
    have hs := LawfulReader.read_step s 1 (by omega)
    rw [h] at hs
    rw [ih, hs.error_inv, bytesNextT, if_pos hret]
  | case4 s e s' h hret =>
    have hs := LawfulReader.read_step s 1 (by omega)
    rw [h] at hs
    rw [hs.error_inv, bytesNextT, if_neg hret]

theorem bytesNextT_loop (c : Cfg) (line : Bytes) (t : List Ev) :
    innerNextT c line t = match bytesNextT c t with
      | (none, t') => (.error .unexpectedEof, t')
      | (some (.error e), t') => (.error e, t')
      | (some (.ok b), t') => match lineStep (line ++ [b]) with
        | some r => (r, t')
        | none => innerNextT c (line ++ [b]) t' := by
  induction t with
  | nil => rfl
  | cons ev t ih =>
    cases ev with
    | byte b => rw [innerNextT, bytesNextT]
    | fault e =>
      rw [innerNextT, bytesNextT]
      by_cases h : c.retries e = true
      · rw [if_pos h, if_pos h]; exact ih
      · rw [if_neg h, if_neg h]

theorem innerNextLoop_trace (c : Cfg) (line : Bytes) (s : σ) :
    ((innerNextLoop c line s).1, trace (innerNextLoop c line s).2) = innerNextT c line (trace s) := by
  fun_induction innerNextLoop c line s with
  | case1 line s s' h =>
    have := bytesNext_trace c s; rw [h] at this; rw [bytesNextT_loop, ← this]
  | case2 line s e s' h =>
    have := bytesNext_trace c s; rw [h] at this; rw [bytesNextT_loop, ← this]
  | case3 line s b s' h line' hc before he =>
    have := bytesNext_trace c s; rw [h] at this; rw [bytesNextT_loop, ← this]
    have : lineStep (line ++ [b]) = some (.ok none) := by
      unfold lineStep; rw [if_pos hc]; simp only [Option.some.injEq]; rw [if_pos he]
    simp only [this]
  | case4 line s b s' h line' hc before he hv =>
    have := bytesNext_trace c s; rw [h] at this; rw [bytesNextT_loop, ← this]
    have : lineStep (line ++ [b]) = some (.ok (some before)) := by
      unfold lineStep; rw [if_pos hc]; simp only [Option.some.injEq]; rw [if_neg he, if_pos hv]
    simp only [this]
  | case5 line s b s' h line' hc before he hv =>
    have := bytesNext_trace c s; rw [h] at this; rw [bytesNextT_loop, ← this]
    have : lineStep (line ++ [b]) = some (.error .utf8) := by
      unfold lineStep; rw [if_pos hc]; simp only [Option.some.injEq]; rw [if_neg he, if_neg hv]
    simp only [this]
  | case6 line s b s' h line' hc ih =>
    have := bytesNext_trace c s; rw [h] at this; rw [bytesNextT_loop, ← this]
    have : lineStep (line ++ [b]) = none := by
      unfold lineStep; rw [if_neg hc]
    simp only [this]
    exact ih

theorem readExactT_bytes (c : Cfg) (bs : Bytes) (n : Nat) (t : List Ev) (h : bs.length ≤ n) :
    readExactT c n (bs.map .byte ++ t) = match readExactT c (n - bs.length) t with
      | (.ok more, t') => (.ok (bs ++ more), t')
      | (.error e, t') => (.error e, t') := by
  induction bs generalizing n with
  | nil => simp; split <;> simp_all
  | cons b bs ih =>
    obtain ⟨k, rfl⟩ : ∃ k, n = k + 1 := ⟨n - 1, by simp at h; omega⟩
    simp only [List.map_cons, List.cons_append, readExactT, List.length_cons, Nat.add_sub_add_right]
    rw [ih k (by simpa using h)]
    split
    · rename_i heq; split at heq <;> simp_all
    · rename_i heq; split at heq <;> simp_all

theorem readExact_trace (c : Cfg) (s : σ) (n : Nat) :
    ((readExact c s n).1, trace (readExact c s n).2) = readExactT c n (trace s) := by
  fun_induction readExact c s n with
  | case1 s => simp [readExactT]
  | case2 s n hn s' h =>
    have hs := LawfulReader.read_step s n (by omega)
    rw [h] at hs
    rcases hs.ok_inv with ⟨_, h2, h3⟩ | ⟨h1, _⟩
    · obtain ⟨k, rfl⟩ : ∃ k, n = k + 1 := ⟨n - 1, by omega⟩
      dsimp only at h2 h3 ⊢; rw [h2, h3]; rfl
    · exact absurd rfl h1
  | case3 s n hn b bs s' h more s'' hrec ih =>
    have hs := LawfulReader.read_step s n (by omega)
    rw [h] at hs
    rw [hs.split, readExactT_bytes _ _ _ _ hs.length_le, ← ih, hrec]
  | case4 s n hn b bs s' h e s'' hrec ih =>
    have hs := LawfulReader.read_step s n (by omega)
    rw [h] at hs
    rw [hs.split, readExactT_bytes _ _ _ _ hs.length_le, ← ih, hrec]
  | case5 s n hn e s' h hret ih =>
    obtain ⟨k, rfl⟩ : ∃ k, n = k + 1 := ⟨n - 1, by omega⟩
    have hs := LawfulReader.read_step s (k + 1) (by omega)
    rw [h] at hs
    rw [hs.error_inv, readExactT, if_pos hret, ← ih]
  | case6 s n hn e s' h hret =>
    obtain ⟨k, rfl⟩ : ∃ k, n = k + 1 := ⟨n - 1, by omega⟩
    have hs := LawfulReader.read_step s (k + 1) (by omega)
    rw [h] at hs
    rw [hs.error_inv, readExactT, if_neg hret]

end

/-! ### A canonical reader: the events themselves, one byte per read. -/

/-- Events as a reader (used in proofs: every lawful reader behaves like its own trace). -/
structure Evs where
  evs : List Ev
deriving DecidableEq, Repr

/-- One event per read. -/
def Evs.readImpl : Evs → Nat → Except Err Bytes × Evs
  | ⟨[]⟩, _ => (.ok [], ⟨[]⟩)
  | ⟨.byte b :: t⟩, n => if n = 0 then (.ok [], ⟨.byte b :: t⟩) else (.ok [b], ⟨t⟩)
  | ⟨.fault e :: t⟩, _ => (.error e, ⟨t⟩)

instance : LawfulReader Evs where
  read := Evs.readImpl
  trace := Evs.evs
  read_step s n hn := by
    rcases s with ⟨_ | ⟨ev, t⟩⟩
    · exact .eof n
    · cases ev with
      | byte b =>
        simp only [Evs.readImpl, show n ≠ 0 by omega, if_false]
        exact .data [b] t n (by simp) hn
      | fault e => exact .fault e t n

instance : ZeroReader Evs where
  read_zero s := by
    rcases s with ⟨_ | ⟨ev, t⟩⟩
    · exact .inl ⟨rfl, rfl⟩
    · cases ev with
      | byte b => exact .inl ⟨rfl, rfl⟩
      | fault e => exact .inr ⟨e, t, rfl, rfl, rfl⟩

@[simp] theorem Evs.trace_mk (t : List Ev) : trace (Evs.mk t) = t := rfl

theorem Evs.eta (s : Evs) (t : List Ev) (h : trace s = t) : s = ⟨t⟩ := by
  cases s; simp only [Evs.trace_mk] at h; rw [h]

end HttpIo
