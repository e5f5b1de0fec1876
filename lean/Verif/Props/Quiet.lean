import Verif.Model.BodyLaws
import Verif.Spec.Reads

/-! C135: a body that has been read to its end leaves the connection alone. -/

namespace HttpIo
open Spec

/-- Reading `b` now, and however often after that, with buffers of any sizes, gives the end and changes nothing: not
the body, nor the connection in it. -/
def Spec.Quiet {β : Type} [Reader β] (b : β) : Prop := ∀ n, read b n = (.ok [], b)

section
variable {c : Cfg} {ρ : Type} [LawfulReader ρ] [ZeroReader ρ]

theorem chunked_quiet {b b' : HttpChunkedBody c ρ} {n : Nat} (h : read b n = (.ok [], b')) :
    b'.chunk = none ∧ b'.stream = none := by
  replace h : HttpChunkedBody.readImpl b n = (.ok [], b') := h
  fun_induction HttpChunkedBody.readImpl b n with
  | case1 => simp at h
  | case2 => simp at h
  | case3 b chunk hc chunk' hr x s he ih => exact ih h
  | case4 => simp at h
  | case5 => simp at h
  | case6 b hc stream hs chunk s hn ih => exact ih h
  | case7 b hc stream hs s hn =>
    simp only [Prod.mk.injEq, true_and] at h
    rw [← h]; exact ⟨hc, rfl⟩
  | case8 b hc hs =>
    simp only [Prod.mk.injEq, true_and] at h
    rw [← h]; exact ⟨hc, hs⟩

/-- A chunked body that has reported its end, in whatever state it was. -/
theorem C135_chunked_partial (b : HttpChunkedBody c ρ) (b' : HttpBody c ρ) (n : Nat)
    (h : read (HttpBody.Chunked b) n = (.ok [], b')) : Quiet b' := by
  rw [HttpBody.read_def] at h
  unfold HttpBody.readImpl at h
  dsimp only at h
  rcases hr : read b n with ⟨r, i⟩
  rw [hr] at h
  simp only [Prod.mk.injEq] at h
  obtain ⟨rfl, rfl⟩ := h
  obtain ⟨h1, h2⟩ := chunked_quiet hr
  intro m
  rw [HttpBody.read_def]
  unfold HttpBody.readImpl
  have : read i m = (.ok [], i) := by
    show HttpChunkedBody.readImpl i m = _
    unfold HttpChunkedBody.readImpl
    split
    · rename_i hc; rw [h1] at hc; simp at hc
    · split
      · rename_i hs; rw [h2] at hs; simp at hs
      · rfl
  dsimp only
  rw [this]

/-- A body with a length, when nothing is left of the length. -/
theorem C135_length_partial (t : Take ρ) (h : (HttpBody.Limited t : HttpBody c ρ).contentLength = some 0) :
    Quiet (HttpBody.Limited t : HttpBody c ρ) := by
  intro m
  simp only [HttpBody.contentLength, Option.some.injEq] at h
  rw [HttpBody.read_def]
  unfold HttpBody.readImpl
  dsimp only
  rw [Take.read_def]
  unfold Take.readImpl
  rw [if_pos h]

end

instance {σ : Type} [LawfulReader σ] [ZeroReader σ] : ZeroReader (Metered σ) where
  read_zero s := ZeroReader.read_zero s.inner

section
variable {c : Cfg} {σ : Type} [LawfulReader σ] [ZeroReader σ]

theorem buf_ended {r r' : BufReader c (Metered σ)} {n : Nat} (hn : 0 < n) (hb : c.std = false → r.buf = [])
    (h : read r n = (.ok [], r')) : r'.buf = [] := by
  rw [BufReader.read_def] at h
  unfold BufReader.readImpl at h
  split at h
  · split at h
    · split at h
      · simp only [Prod.mk.injEq] at h; rw [← h.2]
      · split at h
        · rename_i bs i hr
          simp only [Prod.mk.injEq, Except.ok.injEq] at h
          have : bs = [] := by
            cases bs with
            | nil => rfl
            | cons x xs => cases n with
              | zero => omega
              | succ n => simp at h
          rw [← h.2, this]; simp
        · simp at h
    · rename_i hne
      simp only [Prod.mk.injEq, Except.ok.injEq] at h
      cases hbuf : r.buf with
      | nil => rw [hbuf] at hne; simp at hne
      | cons x xs => rw [hbuf] at h; cases n with
        | zero => omega
        | succ n => simp at h
  · rename_i hs
    simp only [Prod.mk.injEq] at h
    rw [← h.2]; exact hb (by simpa using hs)

theorem buf_asks {r : BufReader c (Metered σ)} (hb : r.buf = []) (n : Nat) :
    (read r n).2.inner.asked.length = r.inner.asked.length + 1 := by
  have key : ∀ k, (read r.inner k).2.asked = r.inner.asked ++ [k] := fun _ => rfl
  rw [BufReader.read_def]
  unfold BufReader.readImpl
  rw [hb]
  split
  · rw [if_pos (by rfl)]
    split
    · dsimp only; rw [key]; simp
    · have := key bufCap
      rcases hr : read r.inner bufCap with ⟨_ | _, i⟩ <;> rw [hr] at this <;> dsimp only at this ⊢ <;> rw [this] <;> simp
  · dsimp only; rw [key]; simp

/-- False of all other bodies that have reported an end, that is of those that end with the connection and of those
that were cut off by its end: a further read asks the connection again. `σ` is any transport, `Metered` writes down what it is
asked. (The buffer of the build without `std` is never used.) -/
theorem C135_asks_again_false (b b' : HttpBody c (BufReader c (Metered σ))) (n : Nat) (hn : 0 < n)
    (hb : c.std = false → ∀ r, b.under = some r → r.buf = [])
    (hk : ∀ i, b ≠ .Chunked i) (h : read b n = (.ok [], b')) (hl : b'.contentLength ≠ some 0) : ¬ Quiet b' := by
  intro hq
  rw [HttpBody.read_def] at h
  unfold HttpBody.readImpl at h
  cases b with
  | Chunked i => exact hk i rfl
  | ReadTilClose r =>
    dsimp only at h
    rcases hr : read r n with ⟨x, r'⟩
    rw [hr] at h
    simp only [Prod.mk.injEq] at h
    obtain ⟨rfl, rfl⟩ := h
    have h1 := buf_asks (buf_ended hn (fun hs => hb hs r rfl) hr) 1
    have h2 := hq 1
    rw [HttpBody.read_def] at h2
    unfold HttpBody.readImpl at h2
    simp only [Prod.mk.injEq, HttpBody.ReadTilClose.injEq] at h2
    rw [h2.2] at h1
    omega
  | Limited t =>
    dsimp only at h
    rcases hr : read t n with ⟨x, t'⟩
    rw [hr] at h
    simp only [Prod.mk.injEq] at h
    obtain ⟨rfl, rfl⟩ := h
    simp only [HttpBody.contentLength, ne_eq, Option.some.injEq] at hl
    have h2 := hq 1
    rw [HttpBody.read_def] at h2
    unfold HttpBody.readImpl at h2
    simp only [Prod.mk.injEq, HttpBody.Limited.injEq] at h2
    rw [Take.read_def] at hr h2
    unfold Take.readImpl at hr h2
    rw [if_neg hl] at h2
    have hbuf : t'.inner.buf = [] := by
      split at hr
      · simp only [Prod.mk.injEq, true_and] at hr; rw [← hr] at hl; exact absurd ‹t.limit = 0› hl
      · split at hr
        · rename_i bs i hi
          simp only [Prod.mk.injEq, Except.ok.injEq] at hr
          obtain ⟨rfl, rfl⟩ := hr
          exact buf_ended (by omega) (fun hs => hb hs t.inner rfl) hi
        · simp at hr
    have h1 := buf_asks hbuf (min 1 t'.limit)
    rcases hi : read t'.inner (min 1 t'.limit) with ⟨y, i⟩
    rw [hi] at h1 h2
    cases y with
    | error e => simp at h2
    | ok bs =>
      dsimp only at h1 h2
      have := congrArg (fun t => t.inner.inner.asked.length) h2.2
      dsimp only at this
      omega

end

/-- Witnesses, in both builds: a chunked body and one with a length, read to the end on a connection with more to come; and
bodies of which the connection is asked again. -/
example : ∀ c : Cfg,
    let w : Metered Wire := ⟨⟨[.data b!"2\r\nab\r\n0\r\n", .data b!"\r\nHTTP/1.1"]⟩, []⟩
    let b := HttpBody.new c (some b!"chunked") none (BufReader.new c w)
    let b1 := (read b 5).2
    (read b 5).1 = .ok b!"ab" ∧ (read b1 5).1 = .ok [] ∧
      (let t := (read (HttpBody.new c none (some 2) (BufReader.new c w)) 5).2
       t.contentLength = some 0 ∧ (read t 5).1 = .ok []) := by
  intro c; rcases c with ⟨_ | _⟩ <;> decide +kernel

example : ∀ c : Cfg,
    let b : HttpBody c (BufReader c (Metered Wire)) := HttpBody.new c none (some 3) (BufReader.new c ⟨⟨[.data b!"ab"]⟩, []⟩)
    let b1 := (read b 5).2
    let b2 := (read b1 5).2
    (read b 5).1 = .ok b!"ab" ∧ (read b1 5).1 = .ok [] ∧ b2.contentLength = some 1 ∧
      (b2.under.map fun r => r.inner.asked.length) = some 2 ∧
      ((read b2 5).2.under.map fun r => r.inner.asked.length) = some 3 := by
  intro c; rcases c with ⟨_ | _⟩ <;> decide +kernel

end HttpIo
