import Verif.Spec.Builds
import Verif.Lemmas.ReadKept
import Verif.Lemmas.Peer

/-! The two builds of the crate do the same on transports that do not interrupt. -/

namespace HttpIo
open Spec

section
variable {σ : Type} [LawfulReader σ] [ZeroReader σ] {c c' : Cfg}

theorem uninterrupted_kept : ReadKept fun s : σ => Uninterrupted (trace s) :=
  ⟨fun s n hs hm => hs ((read_suffix s n).subset hm)⟩

theorem retries_false {e : Err} (c : Cfg) (h : e ≠ .io .interrupted) : ¬ c.retries e = true := by
  intro hr
  unfold Cfg.retries at hr
  apply h
  cases e with
  | io k => cases k <;> simp_all [Err.isInterrupted]
  | _ => simp_all [Err.isInterrupted]

theorem uninterrupted_fault {e : Err} {t : List Ev} (h : Uninterrupted (.fault e :: t)) (c : Cfg) : ¬ c.retries e = true :=
  retries_false c fun he => h (by rw [he]; exact List.mem_cons_self ..)

theorem innerNextT_builds {t : List Ev} {line : Bytes} (h : Uninterrupted t) : innerNextT c line t = innerNextT c' line t := by
  induction t generalizing line with
  | nil => rfl
  | cons ev t ih =>
    cases ev with
    | byte b =>
      rw [innerNextT, innerNextT, ih fun hm => h (List.mem_cons_of_mem _ hm)]
    | fault e =>
      rw [innerNextT, innerNextT, if_neg (uninterrupted_fault h c), if_neg (uninterrupted_fault h c')]

end

section
variable {σ τ : Type} [LawfulReader σ] [ZeroReader σ] [LawfulReader τ] [ZeroReader τ]

omit [ZeroReader σ] [ZeroReader τ] in
theorem innerNext_builds {c c' : Cfg} {s : σ} {u : τ} (h : trace s = trace u) (hq : Uninterrupted (trace s)) :
    (innerNext c s).1 = (innerNext c' u).1 ∧ trace (innerNext c s).2 = trace (innerNext c' u).2 := by
  have h1 := innerNextLoop_trace c [] s
  have h2 := innerNextLoop_trace c' [] u
  rw [innerNextT_builds (c' := c') hq, h, ← h2] at h1
  simpa [innerNext] using h1

omit [ZeroReader σ] [ZeroReader τ] in
theorem crlfNext_builds {c c' : Cfg} {s : σ} {u : τ} (h : trace s = trace u) (hq : Uninterrupted (trace s)) :
    (crlfNext c s).1 = (crlfNext c' u).1 ∧ trace (crlfNext c s).2 = trace (crlfNext c' u).2 := by
  have hi := innerNext_builds (c := c) (c' := c') h hq
  unfold crlfNext
  rcases h1 : innerNext c s with ⟨r1, s1⟩
  rcases h2 : innerNext c' u with ⟨r2, u1⟩
  rw [h1, h2] at hi
  obtain ⟨rfl, h3⟩ := hi
  rcases r1 with e | _ | l <;> exact ⟨rfl, h3⟩

omit [ZeroReader σ] [ZeroReader τ] in
theorem expectNext_builds {c c' : Cfg} {s : σ} {u : τ} (h : trace s = trace u) (hq : Uninterrupted (trace s)) :
    (expectNext c s).1 = (expectNext c' u).1 ∧ trace (expectNext c s).2 = trace (expectNext c' u).2 := by
  have hi := innerNext_builds (c := c) (c' := c') h hq
  unfold expectNext
  rcases h1 : innerNext c s with ⟨r1, s1⟩
  rcases h2 : innerNext c' u with ⟨r2, u1⟩
  rw [h1, h2] at hi
  obtain ⟨rfl, h3⟩ := hi
  rcases r1 with e | _ | l <;> exact ⟨rfl, h3⟩

theorem gather_builds {c c' : Cfg} {line : Bytes} {s : σ} {u : τ} (h : trace s = trace u)
    (hq : Uninterrupted (trace s)) :
    (HttpHeaders.gather c line s).1 = (HttpHeaders.gather c' line u).1 ∧
    (HttpHeaders.gather c line s).2.1 = (HttpHeaders.gather c' line u).2.1 ∧
    trace (HttpHeaders.gather c line s).2.2 = trace (HttpHeaders.gather c' line u).2.2 := by
  fun_induction HttpHeaders.gather c line s generalizing u with
  | case1 line s next s' hc hb ih =>
    have hs := crlfNext_builds (c := c) (c' := c') h hq
    rw [hc] at hs
    rcases hu : crlfNext c' u with ⟨r, u'⟩
    rw [hu] at hs
    obtain ⟨rfl, h2⟩ := hs
    have hg : HttpHeaders.gather c' line u = HttpHeaders.gather c' (line ++ next) u' := by
      conv => lhs; unfold HttpHeaders.gather
      split
      · rename_i heq; rw [hu] at heq; cases heq; rw [if_pos hb]
      · rename_i hno heq; rw [hu] at heq; cases heq; exact absurd rfl (hno _)
    have hq2 := uninterrupted_kept.crlfNext (c := c) hq
    rw [hc] at hq2
    rw [hg]; exact ih h2 hq2
  | case2 line s next s' hc hb =>
    have hs := crlfNext_builds (c := c) (c' := c') h hq
    rw [hc] at hs
    rcases hu : crlfNext c' u with ⟨r, u'⟩
    rw [hu] at hs
    obtain ⟨rfl, h2⟩ := hs
    have hg : HttpHeaders.gather c' line u = (line, some (.ok next), u') := by
      unfold HttpHeaders.gather
      split
      · rename_i heq; rw [hu] at heq; cases heq; rw [if_neg hb]
      · rename_i hno heq; rw [hu] at heq; cases heq; exact absurd rfl (hno _)
    rw [hg]; exact ⟨rfl, rfl, h2⟩
  | case3 line s item s' hno hc =>
    have hs := crlfNext_builds (c := c) (c' := c') h hq
    rw [hc] at hs
    rcases hu : crlfNext c' u with ⟨r, u'⟩
    rw [hu] at hs
    obtain ⟨rfl, h2⟩ := hs
    have hg : HttpHeaders.gather c' line u = (line, item, u') := by
      unfold HttpHeaders.gather
      split
      · rename_i heq; rw [hu] at heq; cases heq; exact absurd rfl (hno _)
      · rename_i heq; rw [hu] at heq; cases heq; rfl
    rw [hg]; exact ⟨rfl, rfl, h2⟩

variable [CaseMap]

theorem deserializeLoop_builds {c c' : Cfg} {item : Option (Except Err Bytes)} {acc : List HttpHeader} {s : σ} {u : τ}
    (h : trace s = trace u)
    (hq : Uninterrupted (trace s)) :
    (HttpHeaders.deserializeLoop c item acc s).1 = (HttpHeaders.deserializeLoop c' item acc u).1 ∧
    trace (HttpHeaders.deserializeLoop c item acc s).2 = trace (HttpHeaders.deserializeLoop c' item acc u).2 := by
  fun_induction HttpHeaders.deserializeLoop c item acc s generalizing u with
  | case1 acc s => unfold HttpHeaders.deserializeLoop; exact ⟨rfl, h⟩
  | case2 acc s e => unfold HttpHeaders.deserializeLoop; exact ⟨rfl, h⟩
  | case3 acc s line line' item' s' hg hd hdes ih =>
    have hs := gather_builds (c := c) (c' := c') (line := line) h hq
    rw [hg] at hs
    rcases hu : HttpHeaders.gather c' line u with ⟨l2, i2, u'⟩
    rw [hu] at hs
    obtain ⟨rfl, rfl, h2⟩ := hs
    have he : HttpHeaders.deserializeLoop c' (some (.ok line)) acc u =
        HttpHeaders.deserializeLoop c' item' (acc ++ [hd]) u' := by
      conv => lhs; unfold HttpHeaders.deserializeLoop
      simp only [hu, hdes]
    have hq2 := uninterrupted_kept.on.gather (c := c) (line := line) hq
    rw [hg] at hq2
    rw [he]; exact ih h2 hq2
  | case4 acc s line line' item' s' hg e hdes =>
    have hs := gather_builds (c := c) (c' := c') (line := line) h hq
    rw [hg] at hs
    rcases hu : HttpHeaders.gather c' line u with ⟨l2, i2, u'⟩
    rw [hu] at hs
    obtain ⟨rfl, rfl, h2⟩ := hs
    have he : HttpHeaders.deserializeLoop c' (some (.ok line)) acc u = (.err e, u') := by
      unfold HttpHeaders.deserializeLoop
      simp only [hu, hdes]
    rw [he]; exact ⟨rfl, h2⟩
  | case5 acc s line line' item' s' hg hdes =>
    have hs := gather_builds (c := c) (c' := c') (line := line) h hq
    rw [hg] at hs
    rcases hu : HttpHeaders.gather c' line u with ⟨l2, i2, u'⟩
    rw [hu] at hs
    obtain ⟨rfl, rfl, h2⟩ := hs
    have he : HttpHeaders.deserializeLoop c' (some (.ok line)) acc u = (.panic, u') := by
      unfold HttpHeaders.deserializeLoop
      simp only [hu, hdes]
    rw [he]; exact ⟨rfl, h2⟩

theorem headers_builds {c c' : Cfg} {s : σ} {u : τ} (h : trace s = trace u)
    (hq : Uninterrupted (trace s)) :
    (HttpHeaders.deserialize c s).1 = (HttpHeaders.deserialize c' u).1 ∧
    trace (HttpHeaders.deserialize c s).2 = trace (HttpHeaders.deserialize c' u).2 := by
  have hi := crlfNext_builds (c := c) (c' := c') h hq
  unfold HttpHeaders.deserialize
  rcases h1 : crlfNext c s with ⟨r1, s1⟩
  rcases h2 : crlfNext c' u with ⟨r2, u1⟩
  rw [h1, h2] at hi
  obtain ⟨rfl, h3⟩ := hi
  have hq2 := uninterrupted_kept.crlfNext (c := c) hq
  rw [h1] at hq2
  have hl := deserializeLoop_builds (c := c) (c' := c') (item := r1) (acc := []) h3 hq2
  dsimp only
  rcases g1 : HttpHeaders.deserializeLoop c r1 [] s1 with ⟨q1, s2⟩
  rcases g2 : HttpHeaders.deserializeLoop c' r1 [] u1 with ⟨q2, u2⟩
  rw [g1, g2] at hl
  obtain ⟨rfl, h4⟩ := hl
  cases q1 <;> exact ⟨rfl, h4⟩

theorem parseHead_builds {α : Type} {c c' : Cfg} {start : Bytes → Res α} {s : σ} {u : τ} (h : trace s = trace u)
    (hq : Uninterrupted (trace s)) :
    (parseHead c start s).1 = (parseHead c' start u).1 ∧
    trace (parseHead c start s).2 = trace (parseHead c' start u).2 := by
  have hi := expectNext_builds (c := c) (c' := c') h hq
  unfold parseHead
  rcases h1 : expectNext c s with ⟨r1, s1⟩
  rcases h2 : expectNext c' u with ⟨r2, u1⟩
  rw [h1, h2] at hi
  obtain ⟨rfl, h3⟩ := hi
  cases r1 with
  | error e => exact ⟨rfl, h3⟩
  | ok line =>
    dsimp only at h3 ⊢
    cases start line with
    | err e => exact ⟨rfl, h3⟩
    | panic => exact ⟨rfl, h3⟩
    | ok a =>
      have hq2 := uninterrupted_kept.expectNext (c := c) hq
      rw [h1] at hq2
      have hh := headers_builds (c := c) (c' := c') h3 hq2
      dsimp only
      rcases g1 : HttpHeaders.deserialize c s1 with ⟨q1, s2⟩
      rcases g2 : HttpHeaders.deserialize c' u1 with ⟨q2, u2⟩
      rw [g1, g2] at hh
      obtain ⟨rfl, h4⟩ := hh
      cases q1 with
      | err e => exact ⟨rfl, h4⟩
      | panic => exact ⟨rfl, h4⟩
      | ok hs =>
        dsimp only
        cases contentLengthOf hs <;> exact ⟨rfl, h4⟩

end

/-! ### Bodies -/

/-- The two traces have the same bytes up to their first fault, and both or none have one. -/
inductive AlikeT : List Ev → List Ev → Prop
  | nil : AlikeT [] []
  | byte (b : UInt8) {t u : List Ev} : AlikeT t u → AlikeT (.byte b :: t) (.byte b :: u)
  | fault (e e' : Err) (t u : List Ev) : AlikeT (.fault e :: t) (.fault e' :: u)

theorem AlikeT.refl (t : List Ev) : AlikeT t t := by
  induction t with
  | nil => exact .nil
  | cons ev t ih => cases ev with
    | byte b => exact .byte b ih
    | fault e => exact .fault e e t t

theorem AlikeT.shape {t u : List Ev} (h : AlikeT t u) : ∃ bs : Bytes, (t = bs.map .byte ∧ u = bs.map .byte) ∨
    ∃ e e' t' u', t = bs.map .byte ++ .fault e :: t' ∧ u = bs.map .byte ++ .fault e' :: u' := by
  induction h with
  | nil => exact ⟨[], .inl ⟨rfl, rfl⟩⟩
  | byte b _ ih =>
    obtain ⟨bs, ⟨h1, h2⟩ | ⟨e, e', t', u', h1, h2⟩⟩ := ih
    · exact ⟨b :: bs, .inl ⟨by rw [h1]; rfl, by rw [h2]; rfl⟩⟩
    · exact ⟨b :: bs, .inr ⟨e, e', t', u', by rw [h1]; rfl, by rw [h2]; rfl⟩⟩
  | fault e e' t u => exact ⟨[], .inr ⟨e, e', t, u, rfl, rfl⟩⟩

theorem readAlike_of_trace {σ τ : Type} [LawfulReader σ] [LawfulReader τ] {s : σ} {u : τ} (h : AlikeT (trace s) (trace u)) :
    ReadAlike s u := by
  obtain ⟨bs, ⟨h1, h2⟩ | ⟨e, e', t', u', h1, h2⟩⟩ := h.shape
  · exact ⟨bs, .inl ⟨yields_of_trace h1, yields_of_trace h2⟩⟩
  · exact ⟨bs, .inr ⟨e, e', failsAfter_of_trace h1, failsAfter_of_trace h2⟩⟩

theorem readExactT_builds {c c' : Cfg} {n : Nat} {t : List Ev} (hq : Uninterrupted t) :
    (∃ bs t', readExactT c n t = (.ok bs, t') ∧ readExactT c' n t = (.ok bs, t') ∧ t' <:+ t) ∨
    (∃ e e' t' u', readExactT c n t = (.error e, t') ∧ readExactT c' n t = (.error e', u')) := by
  induction t generalizing n with
  | nil =>
    cases n with
    | zero => exact .inl ⟨[], [], rfl, rfl, List.suffix_refl _⟩
    | succ n => exact .inr ⟨_, _, _, _, rfl, rfl⟩
  | cons ev t ih =>
    cases n with
    | zero => exact .inl ⟨[], _, by rw [readExactT], by rw [readExactT], List.suffix_refl _⟩
    | succ n =>
      cases ev with
      | byte b =>
        rcases ih (n := n) fun hm => hq (List.mem_cons_of_mem _ hm) with ⟨bs, t', h1, h2, h3⟩ | ⟨e, e', t', u', h1, h2⟩
        · exact .inl ⟨b :: bs, t', by rw [readExactT, h1], by rw [readExactT, h2], h3.trans (List.suffix_cons ..)⟩
        · exact .inr ⟨e, e', t', u', by rw [readExactT, h1], by rw [readExactT, h2]⟩
      | fault e =>
        exact .inr ⟨e, e, t, t, by rw [readExactT, if_neg (uninterrupted_fault hq c)],
          by rw [readExactT, if_neg (uninterrupted_fault hq c')]⟩

theorem innerNextT_suffix {c : Cfg} {line : Bytes} {t : List Ev} : (innerNextT c line t).2 <:+ t := by
  induction t generalizing line with
  | nil => exact List.suffix_refl _
  | cons ev t ih =>
    cases ev with
    | byte b =>
      rw [innerNextT]
      split
      · exact List.suffix_cons ..
      · exact ih.trans (List.suffix_cons ..)
    | fault e =>
      rw [innerNextT]
      split
      · exact ih.trans (List.suffix_cons ..)
      · exact List.suffix_cons ..

theorem Spec.Uninterrupted.suffix {t u : List Ev} (h : Uninterrupted t) (hs : u <:+ t) : Uninterrupted u :=
  fun hm => h (hs.subset hm)

theorem chunkT_builds {c c' : Cfg} (m : Option Nat) (t : List Ev) (hq : Uninterrupted t) (after after' : List Ev) :
    AlikeT (chunkT c after m t) (chunkT c' after' m t) := by
  induction hk : t.length using Nat.strongRecOn generalizing t m after after' with
  | ind k ih =>
    subst hk
    match m with
    | none =>
      rw [chunkT_size, chunkT_size]
      have he : expectNextT c t = expectNextT c' t := by unfold expectNextT; rw [innerNextT_builds hq]
      rw [← he]
      rcases hx : expectNextT c t with ⟨e | l, t'⟩
      · exact .fault _ _ _ _
      · dsimp only
        cases fromStrRadix 16 u64Max l with
        | none => exact .fault _ _ _ _
        | some size =>
          dsimp only
          by_cases h0 : size = 0
          · rw [if_pos h0, if_pos h0]; exact .nil
          · rw [if_neg h0, if_neg h0]
            have hsuf : t' <:+ t := by
              have := innerNextT_suffix (c := c) (line := []) (t := t)
              unfold expectNextT at hx
              rcases hi : innerNextT c [] t with ⟨_ | _ | _, t2⟩ <;> rw [hi] at hx this <;> cases hx
              exact this
            exact ih _ (expectNextT_lt hx) (some size) t' (hq.suffix hsuf) [] [] rfl
    | some 0 =>
      rw [chunkT_end, chunkT_end]
      rcases readExactT_builds (c := c) (c' := c') (n := 2) hq with ⟨bs, t', h1, h2, h3⟩ | ⟨e, e', t', u', h1, h2⟩
      · rw [h1, h2]
        exact ih _ (readExactT_lt (by omega) h1) none t' (hq.suffix h3) [] [] rfl
      · rw [h1, h2]; exact .fault _ _ _ _
    | some (k + 1) =>
      match t with
      | [] => rw [chunkT, chunkT]; exact .fault _ _ _ _
      | .byte b :: t =>
        rw [chunkT, chunkT]
        exact .byte b (ih _ (by simp) (some k) t (hq.suffix (List.suffix_cons ..)) after after' rfl)
      | .fault e :: t => rw [chunkT, chunkT]; exact .fault _ _ _ _

section
variable {σ τ : Type} [LawfulReader σ] [ZeroReader σ] [LawfulReader τ] [ZeroReader τ]

theorem body_builds {c c' : Cfg} {s : σ} {u : τ} (h : trace s = trace u) (hq : Uninterrupted (trace s)) (enc : Option Bytes)
    (n : Option Nat) : ReadAlike (HttpBody.new c enc n s) (HttpBody.new c' enc n u) := by
  apply readAlike_of_trace
  unfold HttpBody.new
  by_cases he : enc = some b!"chunked"
  · rw [if_pos he, if_pos he, HttpBody.trace_chunked, HttpBody.trace_chunked, HttpChunkedBody.trace_new,
      HttpChunkedBody.trace_new, ← h]
    exact chunkT_builds none _ hq [] []
  · rw [if_neg he, if_neg he]
    cases n with
    | none =>
      dsimp only
      rw [HttpBody.trace_tilClose, HttpBody.trace_tilClose, ← h]
      exact .refl _
    | some n =>
      dsimp only
      rw [HttpBody.trace_limited, HttpBody.trace_limited, ← h]
      exact .refl _

end

end HttpIo
