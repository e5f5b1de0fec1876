import Verif.Model.Nesting
import Verif.Props.Body

/-! C127: how deep the calls of a chunked read are nested. -/

namespace HttpIo
open Spec

section
variable {c : Cfg} {ρ : Type} [LawfulReader ρ] [ZeroReader ρ]

/-- `read` is `step`, and then itself again or not. -/
theorem C127_step (b : HttpChunkedBody c ρ) (n : Nat) :
    b.readImpl n = match b.step n with | .inl r => r | .inr b' => b'.readImpl n := by
  rw [HttpChunkedBody.readImpl]
  unfold HttpChunkedBody.step
  cases hc : b.chunk with
  | some ch =>
    dsimp only
    rcases hr : read ch n with ⟨e | _ | ⟨x, xs⟩, ch'⟩
    · rfl
    · dsimp only
      rcases he : readExact c ch'.inner 2 with ⟨e | x, s⟩ <;> rfl
    · rfl
  | none =>
    dsimp only
    cases hs : b.stream with
    | none => rfl
    | some s =>
      dsimp only
      rcases hn : HttpBodyChunk.new c s with ⟨e | _ | ch, s'⟩ <;> rfl

/-- It is itself again exactly if the relation says so. -/
theorem C127_calls {n : Nat} {b b' : HttpChunkedBody c ρ} : b.step n = .inr b' ↔ b.Calls n b' := by
  constructor
  · intro h
    unfold HttpChunkedBody.step at h
    cases hc : b.chunk with
    | some ch =>
      rw [hc] at h
      dsimp only at h
      rcases hr : read ch n with ⟨e | _ | ⟨x, xs⟩, ch'⟩ <;> rw [hr] at h <;> dsimp only at h
      · simp at h
      · rcases he : readExact c ch'.inner 2 with ⟨e | x, s⟩ <;> rw [he] at h <;> simp only [reduceCtorEq, Sum.inr.injEq] at h
        rw [← h]; exact .next hc hr he
      · simp at h
    | none =>
      rw [hc] at h
      dsimp only at h
      cases hs : b.stream with
      | none => rw [hs] at h; simp at h
      | some s =>
        rw [hs] at h
        dsimp only at h
        rcases hn : HttpBodyChunk.new c s with ⟨e | _ | ch, s'⟩ <;> rw [hn] at h <;>
          simp only [reduceCtorEq, Sum.inr.injEq] at h
        rw [← h]; exact .opened hc hs hn
  · intro h
    unfold HttpChunkedBody.step
    cases h with
    | next hc hr he => rw [hc]; dsimp only; rw [hr]; dsimp only; rw [he]
    | opened hc hs hn => rw [hc]; dsimp only; rw [hs]; dsimp only; rw [hn]

theorem calls_unique {n : Nat} {b b1 b2 : HttpChunkedBody c ρ} (h1 : b.Calls n b1) (h2 : b.Calls n b2) : b1 = b2 := by
  cases h1 with
  | next hc hr he =>
    cases h2 with
    | next hc' hr' he' =>
      obtain rfl := Option.some.inj (hc.symm.trans hc')
      rw [hr] at hr'
      simp only [Prod.mk.injEq, true_and] at hr'
      subst hr'
      rw [he] at he'
      simp only [Prod.mk.injEq] at he'
      rw [he'.2]
    | opened hc' => rw [hc] at hc'; simp at hc'
  | opened hc hs hn =>
    cases h2 with
    | next hc' => rw [hc] at hc'; simp at hc'
    | opened _ hs' hn' =>
      obtain rfl := Option.some.inj (hs.symm.trans hs')
      rw [hn] at hn'
      simp only [Prod.mk.injEq, Except.ok.injEq, Option.some.injEq] at hn'
      rw [hn'.1]

theorem nests_unique {n : Nat} {b : HttpChunkedBody c ρ} {k j : Nat} (h1 : b.Nests n k) (h2 : b.Nests n j) : k = j := by
  induction h1 generalizing j with
  | leaf h =>
    cases h2 with
    | leaf _ => rfl
    | call h' => exact absurd h' (h _)
  | call h _ ih =>
    cases h2 with
    | leaf h' => exact absurd h (h' _)
    | call h' hn => rw [ih (calls_unique h h' ▸ hn)]

/-- Behind every size line is a chunk that is not empty. -/
theorem new_limit {s s' : ρ} {ch : Take ρ} (h : HttpBodyChunk.new c s = (.ok (some ch), s')) : 0 < ch.limit := by
  unfold HttpBodyChunk.new at h
  split at h
  · simp at h
  · split at h
    · simp at h
    · split at h
      · simp at h
      · simp only [Prod.mk.injEq, Except.ok.injEq, Option.some.injEq] at h
        rw [← h.1]; dsimp only; omega

/-- A read that has just opened a chunk makes no further call, if it was asked for anything. -/
theorem opened_leaf {n : Nat} (hn : 0 < n) {b b' : HttpChunkedBody c ρ} {ch : Take ρ} (hc : b.chunk = some ch) (hl : 0 < ch.limit) :
    ¬ b.Calls n b' := by
  intro h
  cases h with
  | opened hc' => rw [hc] at hc'; simp at hc'
  | next hc' hr he =>
    obtain rfl := Option.some.inj (hc.symm.trans hc')
    rw [Take.read_def] at hr
    unfold Take.readImpl at hr
    rw [if_neg (by omega)] at hr
    rcases hi : read ch.inner (min n ch.limit) with ⟨res, i⟩
    rw [hi] at hr
    cases res with
    | error e => simp at hr
    | ok x =>
      simp only [Prod.mk.injEq, Except.ok.injEq] at hr
      have hx := hr.1
      subst hx
      have hst := LawfulReader.read_step ch.inner (min n ch.limit) (by omega)
      rw [hi] at hst
      dsimp only at hst
      have hlt := readExact_lt (by omega) he
      rw [← hr.2] at hlt
      dsimp only at hlt
      generalize trace i = t at hst hlt
      generalize trace ch.inner = u at hst
      cases hst with
      | eof => simp at hlt
      | data _ _ _ h => exact h rfl

/-- Whatever the peer sends and however it arrives, a read that is asked for anything is at most three calls deep: the end of
a chunk, the size of the next, its data. Missing for the full property: reads that are asked for nothing, see
`C127_empty_false`. -/
theorem C127_nonempty_partial (b : HttpChunkedBody c ρ) (n : Nat) (hn : 0 < n) : ∃ k, b.Nests n k ∧ k ≤ 3 := by
  have two : ∀ b : HttpChunkedBody c ρ, b.chunk = none → ∃ k, b.Nests n k ∧ k ≤ 2 := by
    intro b hc
    by_cases h : ∃ b', b.Calls n b'
    · obtain ⟨b', h⟩ := h
      refine ⟨2, .call h (.leaf fun b'' h2 => ?_), by omega⟩
      cases h with
      | next hc' => rw [hc] at hc'; simp at hc'
      | opened _ hs hnew => exact opened_leaf hn rfl (new_limit hnew) h2
    · exact ⟨1, .leaf fun b' h' => h ⟨b', h'⟩, by omega⟩
  by_cases h : ∃ b', b.Calls n b'
  · obtain ⟨b', h⟩ := h
    cases hc : b.chunk with
    | none =>
      obtain ⟨k, h1, h2⟩ := two b hc
      exact ⟨k, h1, by omega⟩
    | some ch =>
      have hb : b'.chunk = none := by
        cases h with
        | next => rfl
        | opened hc' => rw [hc] at hc'; simp at hc'
      obtain ⟨k, h1, h2⟩ := two b' hb
      exact ⟨k + 1, .call h h1, by omega⟩
  · exact ⟨1, .leaf fun b' h' => h ⟨b', h'⟩, by omega⟩

/-- A size line, and what an empty read takes for the end of its chunk. -/
theorem empty_step {s : ρ} {t : List Ev} (ht : trace s = b!"1\r\nxx".map .byte ++ t) {b : HttpChunkedBody c ρ} (hc : b.chunk = none)
    (hs : b.stream = some s) :
    ∃ b1 b2 s', b.Calls 0 b1 ∧ b1.Calls 0 b2 ∧ b2.chunk = none ∧ b2.stream = some s' ∧ trace s' = t := by
  have h1 := expectNext_trace c s
  rw [ht, show expectNextT c (b!"1\r\nxx".map .byte ++ t) = (.ok b!"1", .byte 120 :: .byte 120 :: t) by
    unfold expectNextT
    simp [innerNextT, show lineStep [49] = none by decide, show lineStep [49, 13] = none by decide,
      show lineStep [49, 13, 10] = some (.ok (some [49])) by decide]] at h1
  rcases he : expectNext c s with ⟨r, s1⟩
  rw [he] at h1
  simp only [Prod.mk.injEq] at h1
  obtain ⟨rfl, h2⟩ := h1
  have hnew : HttpBodyChunk.new c s = (.ok (some ⟨s1, 1⟩), s1) := by
    unfold HttpBodyChunk.new
    rw [he]
    dsimp only
    rw [show fromStrRadix 16 u64Max b!"1" = some 1 by decide]
    rfl
  have hz := ZeroReader.read_zero s1
  rcases hr : read s1 0 with ⟨r, s2⟩
  rw [hr] at hz
  dsimp only at hz
  rcases hz with ⟨rfl, h3⟩ | ⟨e, u, h3, _⟩
  · obtain ⟨s3, h4, h5⟩ := readExact_eq (c := c) (s := s2) (n := 2) (r := .ok b!"xx") (t := t) (by
      rw [h3, h2]
      exact readExactT_delivers (delivers_map c b!"xx" t))
    refine ⟨_, _, s3, .opened hc hs hnew, .next (chunk' := ⟨s2, 1⟩) rfl ?_ h4, rfl, rfl, h5⟩
    · rw [Take.read_def]
      unfold Take.readImpl
      rw [if_neg (show ¬ (1 : Nat) = 0 by decide)]
      dsimp only
      rw [show min 0 1 = 0 from rfl, hr]
      rfl
  · rw [h2] at h3; simp at h3

theorem empty_deep (k : Nat) (s : ρ) (ht : trace s = ((List.replicate k b!"1\r\nxx").flatten).map .byte) (b : HttpChunkedBody c ρ)
    (hc : b.chunk = none) (hs : b.stream = some s) : b.Nests 0 (2 * k + 1) := by
  induction k generalizing s b with
  | zero =>
    refine .leaf fun b' h => ?_
    cases h with
    | next hc' => rw [hc] at hc'; simp at hc'
    | opened _ hs' hn =>
      obtain rfl := Option.some.inj (hs.symm.trans hs')
      have := HttpBodyChunk.new_lt hn
      rw [ht] at this
      simp at this
  | succ k ih =>
    rw [List.replicate_succ, List.flatten_cons, List.map_append] at ht
    obtain ⟨b1, b2, s', h1, h2, h3, h4, h5⟩ := empty_step ht hc hs
    exact .call h1 (.call h2 (ih s' h5 b2 h3 h4))

end

/-- False in full: a read that is asked for nothing can be made as deep as the peer likes, in either build. A stack is not
unbounded. -/
theorem C127_empty_false (c : Cfg) (bound : Nat) :
    ∃ bytes k, bound < k ∧ (HttpChunkedBody.new c none (BufReader.new c (⟨[.data bytes]⟩ : Wire))).Nests 0 k := by
  refine ⟨(List.replicate bound b!"1\r\nxx").flatten, 2 * bound + 1, by omega, empty_deep bound _ ?_ _ rfl rfl⟩
  rw [BufReader.trace_new]
  show List.flatMap WireEv.events [.data _] = _
  simp [WireEv.events]

/-- Three calls are made when a chunk is at its end: one finds that, one reads the size of the next, one its data. -/
example (c : Cfg) : (HttpChunkedBody.mk none none (some ⟨⟨[.data b!"\r\n2\r\nab"]⟩, 0⟩) none : HttpChunkedBody c Wire).Nests 8 3 := by
  refine .call (.next (chunk' := ⟨⟨[.data b!"\r\n2\r\nab"]⟩, 0⟩) (x := b!"\r\n") (s := ⟨[.data b!"2\r\nab"]⟩) rfl ?_ ?_)
    (.call (.opened (chunk := ⟨⟨[.data b!"ab"]⟩, 2⟩) (s := ⟨[.data b!"ab"]⟩) rfl rfl ?_) (.leaf fun b' => opened_leaf (by decide) rfl (by decide))) <;>
    rcases c with ⟨_ | _⟩ <;> decide +kernel

end HttpIo
