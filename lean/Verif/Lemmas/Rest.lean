import Verif.Model.BodyLaws
import Verif.Spec.Body

/-! What is left on the stream under a body when the body has come to its end. It depends on the events of the stream only. -/

namespace HttpIo
open Spec LawfulReader

/-- What is left of the events `t` under a chunked reader when it has ended or failed: at a size line (`none`) or inside a chunk
with `some k` bytes left. -/
def chunkRest (c : Cfg) : Option Nat → List Ev → List Ev
  | none, t =>
    match h : expectNextT c t with
    | (.error _, t') => t'
    | (.ok l, t') =>
      match fromStrRadix 16 u64Max l with
      | none => t'
      | some size => if size = 0 then t' else chunkRest c (some size) t'
  | some 0, t =>
    match h : readExactT c 2 t with
    | (.error _, t') => t'
    | (.ok _, t') => chunkRest c none t'
  | some (_ + 1), [] => []
  | some (k + 1), .byte _ :: t => chunkRest c (some k) t
  | some (_ + 1), .fault _ :: t => t
termination_by _ t => t.length
decreasing_by
  · exact expectNextT_lt h
  · exact readExactT_lt (by omega) h
  · simp

theorem chunkRest_size {c : Cfg} {t : List Ev} :
    chunkRest c none t = match expectNextT c t with
    | (.error _, t') => t'
    | (.ok l, t') =>
      match fromStrRadix 16 u64Max l with
      | none => t'
      | some size => if size = 0 then t' else chunkRest c (some size) t' := by
  rw [chunkRest]; split <;> simp_all

theorem chunkRest_end {c : Cfg} {t : List Ev} :
    chunkRest c (some 0) t = match readExactT c 2 t with
    | (.error _, t') => t'
    | (.ok _, t') => chunkRest c none t' := by
  rw [chunkRest]; split <;> simp_all

theorem chunkRest_bytes {c : Cfg} {t : List Ev} {k : Nat} {bs : Bytes} (h : bs.length ≤ k) :
    chunkRest c (some k) (bs.map .byte ++ t) = chunkRest c (some (k - bs.length)) t := by
  induction bs generalizing k with
  | nil => simp
  | cons b bs ih =>
    cases k with
    | zero => simp at h
    | succ k =>
      simp only [List.map_cons, List.cons_append, List.length_cons, Nat.add_sub_add_right]
      rw [chunkRest, ih (by simpa using h)]

/-- What is left of the events under a body with a declared length of which `k` bytes are missing, when it has ended. -/
def limitRest : Nat → List Ev → List Ev
  | 0, t => t
  | _ + 1, [] => []
  | k + 1, .byte _ :: t => limitRest k t
  | k + 1, .fault _ :: t => limitRest (k + 1) t

theorem limitRest_bytes {t : List Ev} {k : Nat} {bs : Bytes} (h : bs.length ≤ k) :
    limitRest k (bs.map .byte ++ t) = limitRest (k - bs.length) t := by
  induction bs generalizing k with
  | nil => simp
  | cons b bs ih =>
    cases k with
    | zero => simp at h
    | succ k =>
      simp only [List.map_cons, List.cons_append, List.length_cons, Nat.add_sub_add_right]
      rw [limitRest, ih (by simpa using h)]

section
variable {c : Cfg} {ρ : Type} [LawfulReader ρ]

/-- What will be left when a chunked body has ended. -/
def HttpChunkedBody.rest (b : HttpChunkedBody c ρ) : Option (List Ev) :=
  match b.chunk with
  | some ch => some (chunkRest c (some ch.limit) (trace ch.inner))
  | none =>
    match b.stream with
    | some s => some (chunkRest c none (trace s))
    | none => b.lost.map trace

/-- The stream is in the chunk or in the body, not in both. -/
def HttpChunkedBody.Sound (b : HttpChunkedBody c ρ) : Prop := b.chunk = none ∨ b.stream = none

theorem HttpBodyChunk.new_rest (s : ρ) :
    chunkRest c none (trace s) = match HttpBodyChunk.new c s with
      | (.error _, s') => trace s'
      | (.ok none, s') => trace s'
      | (.ok (some ch), _) => chunkRest c (some ch.limit) (trace ch.inner) := by
  rw [chunkRest_size, ← expectNext_trace]
  unfold HttpBodyChunk.new
  rcases he : expectNext c s with ⟨r, s'⟩
  cases r with
  | error e => rfl
  | ok l =>
    dsimp only
    cases hf : fromStrRadix 16 u64Max l with
    | none => rfl
    | some n =>
      dsimp only
      by_cases h0 : n = 0
      · rw [if_pos h0, if_pos h0]
      · rw [if_neg h0, if_neg h0]

variable [ZeroReader ρ]

theorem HttpChunkedBody.read_rest (b : HttpChunkedBody c ρ) (n : Nat) (hn : 0 < n) (hb : b.Sound) :
    (HttpChunkedBody.readImpl b n).2.Sound ∧ (HttpChunkedBody.readImpl b n).2.rest = b.rest ∧
    ((HttpChunkedBody.readImpl b n).1 = .ok [] → (HttpChunkedBody.readImpl b n).2.chunk = none ∧
      (HttpChunkedBody.readImpl b n).2.stream = none) := by
  fun_induction HttpChunkedBody.readImpl b n with
  | case1 b chunk hc e chunk' hr =>
    have hst : b.stream = none := by rcases hb with h | h <;> simp_all
    refine ⟨.inl rfl, ?_, by simp⟩
    unfold HttpChunkedBody.rest
    simp only [hc, hst]
    rw [Take.read_def] at hr; unfold Take.readImpl at hr
    split at hr
    · simp at hr
    · rename_i hpos
      rcases hin : read chunk.inner (min n chunk.limit) with ⟨res, i⟩
      rw [hin] at hr
      cases res with
      | ok bs => simp at hr
      | error e =>
        simp only [Prod.mk.injEq] at hr
        have hs := LawfulReader.read_step chunk.inner (min n chunk.limit) (by omega)
        rw [hin] at hs
        have he := hs.error_inv
        obtain ⟨k, hk⟩ : ∃ k, chunk.limit = k + 1 := ⟨chunk.limit - 1, by omega⟩
        rw [hk, he, chunkRest, ← hr.2]
        rfl
  | case2 b chunk hc chunk' hr e s he =>
    have hst : b.stream = none := by rcases hb with h | h <;> simp_all
    refine ⟨.inl rfl, ?_, by simp⟩
    unfold HttpChunkedBody.rest
    simp only [hc, hst]
    have hx := readExact_trace c chunk'.inner 2
    rw [he] at hx
    rcases Nat.eq_zero_or_pos chunk.limit with h0 | hpos
    · have hci : chunk'.inner = chunk.inner := by
        rw [Take.read_def] at hr; unfold Take.readImpl at hr; rw [if_pos h0] at hr
        simp only [Prod.mk.injEq] at hr; rw [hr.2]
      rw [h0, chunkRest_end, ← hci, ← hx]
      rfl
    · rw [Take.read_def] at hr; unfold Take.readImpl at hr; rw [if_neg (by omega)] at hr
      rcases hin : read chunk.inner (min n chunk.limit) with ⟨res, i⟩
      rw [hin] at hr
      cases res with
      | error e => simp at hr
      | ok bs =>
        simp only [Prod.mk.injEq, Except.ok.injEq] at hr
        obtain ⟨rfl, rfl⟩ := hr
        have hst := LawfulReader.read_step chunk.inner (min n chunk.limit) (by omega)
        rw [hin] at hst
        rcases hst.ok_inv with ⟨_, h2, h3⟩ | ⟨h1, _⟩
        · obtain ⟨k, hk⟩ : ∃ k, chunk.limit = k + 1 := ⟨chunk.limit - 1, by omega⟩
          dsimp only at h2 h3 hx
          rw [h3, show readExactT c 2 [] = (.error c.eofErr, []) from rfl] at hx
          simp only [Prod.mk.injEq] at hx
          rw [hk, h2, chunkRest, ← hx.2]
          rfl
        · exact absurd rfl h1
  | case3 b chunk hc chunk' hr bs s he ih =>
    have hx := readExact_trace c chunk'.inner 2
    rw [he] at hx
    have heq : HttpChunkedBody.rest (c := c) { b with chunk := none, stream := some s } = b.rest := by
      unfold HttpChunkedBody.rest
      simp only [hc]
      rcases Nat.eq_zero_or_pos chunk.limit with h0 | hpos
      · have hci : chunk'.inner = chunk.inner := by
          rw [Take.read_def] at hr; unfold Take.readImpl at hr; rw [if_pos h0] at hr
          simp only [Prod.mk.injEq] at hr; rw [hr.2]
        rw [h0, chunkRest_end, ← hci, ← hx]
      · exfalso
        rw [Take.read_def] at hr; unfold Take.readImpl at hr; rw [if_neg (by omega)] at hr
        rcases hin : read chunk.inner (min n chunk.limit) with ⟨res, i⟩
        rw [hin] at hr
        cases res with
        | error e => simp at hr
        | ok bs =>
          simp only [Prod.mk.injEq, Except.ok.injEq] at hr
          obtain ⟨rfl, rfl⟩ := hr
          have hst := LawfulReader.read_step chunk.inner (min n chunk.limit) (by omega)
          rw [hin] at hst
          rcases hst.ok_inv with ⟨_, h2, h3⟩ | ⟨h1, _⟩
          · dsimp only at h3 hx
            rw [h3, show readExactT c 2 [] = (.error c.eofErr, []) from rfl] at hx
            simp at hx
          · exact absurd rfl h1
    obtain ⟨i1, i2, i3⟩ := ih (.inl rfl)
    exact ⟨i1, i2.trans heq, i3⟩
  | case4 b chunk hc x xs chunk' hr =>
    have hst : b.stream = none := by rcases hb with h | h <;> simp_all
    refine ⟨.inr hst, ?_, by simp⟩
    unfold HttpChunkedBody.rest
    simp only [hc]
    rw [Take.read_def] at hr; unfold Take.readImpl at hr
    split at hr
    · simp at hr
    · rename_i hpos
      rcases hin : read chunk.inner (min n chunk.limit) with ⟨res, i⟩
      rw [hin] at hr
      cases res with
      | error e => simp at hr
      | ok bs =>
        simp only [Prod.mk.injEq, Except.ok.injEq] at hr
        obtain ⟨rfl, rfl⟩ := hr
        have hst := LawfulReader.read_step chunk.inner (min n chunk.limit) (by omega)
        rw [hin] at hst
        have hlen := hst.length_le
        have hsp := hst.split
        dsimp only at hsp
        rw [hsp, chunkRest_bytes (by omega)]
  | case5 b hc stream hst e s hn' =>
    have := HttpBodyChunk.new_rest (c := c) stream
    rw [hn'] at this
    refine ⟨.inl hc, ?_, by simp⟩
    unfold HttpChunkedBody.rest
    simp only [hc, hst, this]
    rfl
  | case6 b hc stream hst chunk s hn' ih =>
    have := HttpBodyChunk.new_rest (c := c) stream
    rw [hn'] at this
    have heq : HttpChunkedBody.rest (c := c) { b with stream := none, chunk := some chunk } = b.rest := by
      unfold HttpChunkedBody.rest
      simp only [hc, hst, this]
    obtain ⟨i1, i2, i3⟩ := ih (.inr rfl)
    exact ⟨i1, i2.trans heq, i3⟩
  | case7 b hc stream hst s hn' =>
    have := HttpBodyChunk.new_rest (c := c) stream
    rw [hn'] at this
    refine ⟨.inl hc, ?_, fun _ => ⟨hc, rfl⟩⟩
    unfold HttpChunkedBody.rest
    simp only [hc, hst, this]
    rfl
  | case8 b hc hst =>
    exact ⟨hb, rfl, fun _ => ⟨hc, hst⟩⟩

/-- What will be left on the stream when a body has ended. -/
def HttpBody.rest : HttpBody c ρ → Option (List Ev)
  | .Chunked i => i.rest
  | .Limited t => some (limitRest t.limit (trace t.inner))
  | .ReadTilClose _ => some []

def HttpBody.Sound : HttpBody c ρ → Prop
  | .Chunked i => i.Sound
  | _ => True

theorem HttpBody.read_rest (b : HttpBody c ρ) (n : Nat) (hn : 0 < n) (hb : b.Sound) :
    (read b n).2.Sound ∧ (read b n).2.rest = b.rest ∧
    ((read b n).1 = .ok [] → (read b n).2.under.map trace = b.rest) := by
  rw [HttpBody.read_def]
  unfold HttpBody.readImpl
  cases b with
  | Chunked i =>
    obtain ⟨h1, h2, h3⟩ := HttpChunkedBody.read_rest i n hn hb
    refine ⟨h1, h2, fun he => ?_⟩
    obtain ⟨h4, h5⟩ := h3 he
    rw [HttpBody.rest, ← h2]
    show (HttpBody.under (.Chunked (HttpChunkedBody.readImpl i n).2)).map trace = _
    unfold HttpBody.under HttpChunkedBody.rest
    simp only [h4, h5]
  | Limited t =>
    dsimp only
    rw [Take.read_def]
    unfold Take.readImpl
    by_cases h0 : t.limit = 0
    · rw [if_pos h0]
      refine ⟨trivial, rfl, fun _ => ?_⟩
      unfold HttpBody.under HttpBody.rest
      dsimp only
      rw [h0, limitRest]
      rfl
    · rw [if_neg h0]
      have hs := LawfulReader.read_step t.inner (min n t.limit) (by omega)
      rcases hin : read t.inner (min n t.limit) with ⟨res, i⟩
      rw [hin] at hs
      cases res with
      | error e =>
        have he := hs.error_inv
        refine ⟨trivial, ?_, by simp⟩
        obtain ⟨k, hk⟩ : ∃ k, t.limit = k + 1 := ⟨t.limit - 1, by omega⟩
        unfold HttpBody.rest
        dsimp only
        rw [hk, he, limitRest]
      | ok bs =>
        have hsp := hs.split
        have hlen := hs.length_le
        dsimp only at hsp
        refine ⟨trivial, ?_, fun he => ?_⟩
        · unfold HttpBody.rest
          dsimp only
          rw [hsp, limitRest_bytes (by omega)]
        · simp only [Except.ok.injEq] at he
          subst he
          rcases hs.ok_inv with ⟨_, h2, h3⟩ | ⟨h1, _⟩
          · obtain ⟨k, hk⟩ : ∃ k, t.limit = k + 1 := ⟨t.limit - 1, by omega⟩
            unfold HttpBody.under HttpBody.rest
            dsimp only at h3 ⊢
            rw [hk, h2, limitRest, ← h3]
            rfl
          · exact absurd rfl h1
  | ReadTilClose r =>
    refine ⟨trivial, rfl, fun he => ?_⟩
    have hs := LawfulReader.read_step r n hn
    dsimp only at he ⊢
    rw [he] at hs
    rcases hs.ok_inv with ⟨_, _, h3⟩ | ⟨h1, _⟩
    · show some (trace (read r n).2) = some []
      rw [h3]
    · exact absurd rfl h1

theorem HttpBody.rest_new (enc : Option Bytes) (n : Option Nat) (s : ρ) : (HttpBody.new c enc n s).Sound := by
  unfold HttpBody.new
  split
  · exact .inl rfl
  · cases n <;> trivial

theorem HttpBody.ended_rest (b : HttpBody c ρ) (hb : b.Sound) (ht : trace b = []) (hu : b.under.map trace = b.rest)
    (sizes : List Nat) (hp : Positive sizes) :
    (calls b sizes).2.under.map trace = b.rest ∧ seen (calls b sizes).1 = [] := by
  induction sizes generalizing b with
  | nil => exact ⟨hu, rfl⟩
  | cons n ns ih =>
    have hn := hp n (by simp)
    obtain ⟨h1, h2, h3⟩ := HttpBody.read_rest b n hn hb
    have hs := LawfulReader.read_step b n hn
    rw [ht] at hs
    generalize hr : (read b n).1 = r at hs
    generalize ht' : trace (read b n).2 = t' at hs
    have : r = .ok [] ∧ t' = [] := by
      rcases r with e | bs
      · have := hs.error_inv; simp at this
      · rcases hs.ok_inv with ⟨rfl, _, h⟩ | ⟨h, _, h'⟩
        · exact ⟨rfl, h⟩
        · cases bs <;> simp at h h'
    obtain ⟨rfl, rfl⟩ := this
    obtain ⟨i1, i2⟩ := ih (read b n).2 h1 ht' (by rw [h3 hr, h2]) (fun m hm => hp m (by simp [hm]))
    refine ⟨by rw [calls, i1, h2], ?_⟩
    rw [calls, hr]
    simpa [seen] using i2

/-- Reading a body to its end gives its events and leaves on the stream what `rest` says. -/
theorem HttpBody.calls_rest (b : HttpBody c ρ) (hb : b.Sound) (sizes : List Nat) (hp : Positive sizes)
    (he : .ok [] ∈ (calls b sizes).1) :
    (calls b sizes).2.under.map trace = b.rest ∧ seen (calls b sizes).1 = trace b := by
  induction sizes generalizing b with
  | nil => simp [calls] at he
  | cons n ns ih =>
    have hn := hp n (by simp)
    have hp' : Positive ns := fun m hm => hp m (by simp [hm])
    obtain ⟨h1, h2, h3⟩ := HttpBody.read_rest b n hn hb
    have hs := LawfulReader.read_step b n hn
    rw [calls] at he ⊢
    dsimp only at he ⊢
    by_cases hr : (read b n).1 = .ok []
    · rw [hr] at hs
      rcases hs.ok_inv with ⟨_, g1, g2⟩ | ⟨h, _⟩
      · obtain ⟨i1, i2⟩ := HttpBody.ended_rest (read b n).2 h1 g2 (by rw [h3 hr, h2]) ns hp'
        refine ⟨by rw [i1, h2], ?_⟩
        rw [hr, g1]
        simpa [seen] using i2
      · exact absurd rfl h
    · have he' : .ok [] ∈ (calls (read b n).2 ns).1 := by
        rcases List.mem_cons.1 he with h | h
        · exact absurd h.symm hr
        · exact h
      obtain ⟨i1, i2⟩ := ih (read b n).2 h1 hp' he'
      refine ⟨by rw [i1, h2], ?_⟩
      generalize hr' : (read b n).1 = r at hs
      rcases r with e | bs
      · rw [hs.error_inv]
        simp [seen, i2]
      · rw [hs.split]
        simp [seen, i2]

end

end HttpIo
