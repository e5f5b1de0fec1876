import Verif.Lemmas.Calls
import Verif.Lemmas.Headers
import Verif.Model.BodyLaws

/-! Lemmas about bodies: chunk decoding of well-delimited and of truncated streams. -/

namespace HttpIo
open Spec

/-! ### Number texts are lines -/

theorem digitVal_ascii {r d : Nat} {b : UInt8} (h : DigitVal r b d) : b.toNat < 128 ∧ b ≠ 13 ∧ b ≠ 10 := by
  have := h.range
  cases h with
  | dec d h1 h2 =>
    have : ∀ d, d < 10 → (UInt8.ofNat (48 + d)).toNat < 128 ∧ UInt8.ofNat (48 + d) ≠ 13 ∧ UInt8.ofNat (48 + d) ≠ 10 := by decide
    exact this d h1
  | lower d h1 h2 h3 =>
    have : ∀ d, d < 36 → (UInt8.ofNat (97 + (d - 10))).toNat < 128 ∧ UInt8.ofNat (97 + (d - 10)) ≠ 13 ∧
      UInt8.ofNat (97 + (d - 10)) ≠ 10 := by decide
    exact this d h2
  | upper d h1 h2 h3 =>
    have : ∀ d, d < 36 → (UInt8.ofNat (65 + (d - 10))).toNat < 128 ∧ UInt8.ofNat (65 + (d - 10)) ≠ 13 ∧
      UInt8.ofNat (65 + (d - 10)) ≠ 10 := by decide
    exact this d h2

theorem not_hasCrLf_of_no_cr {l : Bytes} (h : (13 : UInt8) ∉ l) : ¬ HasCrLf l := by
  rintro ⟨p, q, rfl⟩
  exact h (by simp)

theorem unsignedText_rawLine {r n : Nat} {t : Bytes} (h : UnsignedText r t n) : RawLine t := by
  have hd : ∀ b ∈ t, b.toNat < 128 ∧ b ≠ 13 := by
    rcases h with h | ⟨ds, rfl, h⟩
    · intro b hb
      obtain ⟨d, hd⟩ := h.digits b hb
      exact ⟨(digitVal_ascii hd).1, (digitVal_ascii hd).2.1⟩
    · intro b hb
      simp only [List.mem_cons] at hb
      rcases hb with rfl | hb
      · decide
      · obtain ⟨d, hd⟩ := h.digits b hb
        exact ⟨(digitVal_ascii hd).1, (digitVal_ascii hd).2.1⟩
  refine ⟨?_, not_hasCrLf_of_no_cr fun hm => (hd _ hm).2 rfl, isText_ascii ?_⟩
  · rcases h with h | ⟨ds, rfl, _⟩
    · exact h.ne_nil
    · simp
  · unfold isAscii
    simp only [List.all_eq_true, decide_eq_true_eq]
    intro b hb; exact (hd b hb).1

theorem parseSize {l : Bytes} {n : Nat} (h : UnsignedText 16 l n) (hn : n < 2 ^ 64) :
    fromStrRadix 16 u64Max l = some n :=
  (fromStrRadix_iff (by omega) (by omega)).2 ⟨h, by unfold u64Max; omega⟩

/-! ### `read_exact` -/

theorem readExactT_delivers {c : Cfg} {t t' : List Ev} {bs : Bytes} (h : Delivers c t bs t') :
    readExactT c bs.length t = (.ok bs, t') := by
  induction h with
  | nil t => simp [readExactT]
  | byte b _ ih => simp only [List.length_cons, readExactT, ih]
  | retry hr _ ih =>
    simp only [List.length_cons, readExactT] at ih ⊢
    rw [if_pos (retries_iff.2 hr)]; exact ih

theorem readExactT_short {c : Cfg} {t t' : List Ev} {bs : Bytes} {n : Nat} (h : Delivers c t bs t') (hn : bs.length < n)
    (he : Ended c t') : readExactT c n t = (.error c.eofErr, []) := by
  induction h generalizing n with
  | nil t =>
    obtain ⟨k, rfl⟩ : ∃ k, n = k + 1 := ⟨n - 1, by simp at hn; omega⟩
    induction t with
    | nil => rfl
    | cons ev t ih =>
      obtain ⟨e, rfl, hr⟩ := he ev (by simp)
      rw [readExactT, if_pos (retries_iff.2 hr)]
      exact ih fun ev hev => he ev (by simp [hev])
  | byte b _ ih =>
    obtain ⟨k, rfl⟩ : ∃ k, n = k + 1 := ⟨n - 1, by omega⟩
    simp only [readExactT, ih (n := k) (by simpa using hn) he]
  | retry hr _ ih =>
    obtain ⟨k, rfl⟩ : ∃ k, n = k + 1 := ⟨n - 1, by omega⟩
    rw [readExactT, if_pos (retries_iff.2 hr)]; exact ih hn he

theorem readExactT_fails {c : Cfg} {t t' t'' : List Ev} {bs : Bytes} {n : Nat} {e : Err} (h : Delivers c t bs t')
    (hn : bs.length < n) (he : Fails c t' e t'') : readExactT c n t = (.error e, t'') := by
  induction h generalizing n with
  | nil t =>
    obtain ⟨k, rfl⟩ : ∃ k, n = k + 1 := ⟨n - 1, by simp at hn; omega⟩
    obtain ⟨hr, pre, rfl, hp⟩ := he
    induction pre with
    | nil => simp only [List.nil_append]; rw [readExactT, if_neg (mt retries_iff.1 hr)]
    | cons ev pre ih =>
      obtain ⟨e', rfl, hr'⟩ := hp ev (by simp)
      rw [List.cons_append, readExactT, if_pos (retries_iff.2 hr')]
      exact ih fun ev hev => hp ev (by simp [hev])
  | byte b _ ih =>
    obtain ⟨k, rfl⟩ : ∃ k, n = k + 1 := ⟨n - 1, by omega⟩
    simp only [readExactT, ih (n := k) (by simpa using hn) he]
  | retry hr _ ih =>
    obtain ⟨k, rfl⟩ : ∃ k, n = k + 1 := ⟨n - 1, by omega⟩
    rw [readExactT, if_pos (retries_iff.2 hr)]; exact ih hn he

section
variable {σ : Type} [LawfulReader σ]

theorem readExact_eq {c : Cfg} {s : σ} {n : Nat} {r : Except Err Bytes} {t : List Ev}
    (h : readExactT c n (trace s) = (r, t)) : ∃ s', readExact c s n = (r, s') ∧ trace s' = t := by
  have := readExact_trace c s n
  rw [h] at this
  rcases hr : readExact c s n with ⟨r', s'⟩
  rw [hr] at this
  simp only [Prod.mk.injEq] at this
  exact ⟨s', by rw [this.1], this.2⟩

end

/-! ### Decoding a well-delimited chunked body -/

/-- What is left to decode, from a size line (`none`) or with `some k` bytes of a chunk left: events, data, and what
follows the body. -/
inductive Enc (c : Cfg) : Option Nat → List Ev → Bytes → List Ev → Prop
  | last {t rest : List Ev} {l : Bytes} : Delivers c t (l ++ [13, 10]) rest → UnsignedText 16 l 0 → Enc c none t [] rest
  | size {t t1 rest : List Ev} {l d : Bytes} {k : Nat} : Delivers c t (l ++ [13, 10]) t1 →
      UnsignedText 16 l (k + 1) → k + 1 < 2 ^ 64 → Enc c (some (k + 1)) t1 d rest → Enc c none t d rest
  | tail {t t1 rest : List Ev} {x d : Bytes} : Delivers c t x t1 → x.length = 2 → Enc c none t1 d rest →
      Enc c (some 0) t d rest
  | byte {t rest : List Ev} {b : UInt8} {d : Bytes} {k : Nat} : Enc c (some k) t d rest →
      Enc c (some (k + 1)) (.byte b :: t) (b :: d) rest

theorem enc_bytes {c : Cfg} {t rest : List Ev} {x d : Bytes} (h : Enc c (some 0) t d rest) :
    Enc c (some x.length) (x.map .byte ++ t) (x ++ d) rest := by
  induction x with
  | nil => exact h
  | cons b x ih => exact .byte ih

theorem enc_of_delivers {c : Cfg} {t rest : List Ev} {chs : List Chunk} {last : Bytes}
    (h : DeliversChunked c t chs last rest) (hl : UnsignedText 16 last 0) (hs : ∀ ch ∈ chs, ch.Sized) :
    Enc c none t (chunkedData chs) rest := by
  induction h with
  | last h => exact .last h hl
  | @chunk t t1 t2 rest ch chs last h1 h2 _ ih =>
    obtain ⟨g1, g2, g3, g4⟩ := hs ch (by simp)
    have ih := ih hl fun c hc => hs c (by simp [hc])
    obtain ⟨k, hk⟩ : ∃ k, ch.data.length = k + 1 := ⟨ch.data.length - 1, by have := List.length_pos_iff.2 g2; omega⟩
    rw [hk] at g1 g3
    refine .size h1 g1 g3 ?_
    rw [← hk]
    exact enc_bytes (.tail h2 g4 ih)

theorem Enc.trace {c : Cfg} {m : Option Nat} {t rest : List Ev} {d : Bytes} (h : Enc c m t d rest) (after : List Ev) :
    chunkT c after m t = d.map .byte := by
  induction h generalizing after with
  | last h hl =>
    have := innerNextT_line (unsignedText_rawLine hl).2.1 h
    rw [chunkT_size]
    unfold expectNextT
    rw [this]
    have hr := unsignedText_rawLine hl
    rw [lineOutcome, if_neg (by simp [hr.1]), if_pos ((validUtf8_iff _).2 hr.2.2)]
    dsimp only
    rw [parseSize hl (by omega)]
    rfl
  | size h hl hk _ ih =>
    have := innerNextT_line (unsignedText_rawLine hl).2.1 h
    rw [chunkT_size]
    unfold expectNextT
    rw [this]
    have hr := unsignedText_rawLine hl
    rw [lineOutcome, if_neg (by simp [hr.1]), if_pos ((validUtf8_iff _).2 hr.2.2)]
    dsimp only
    rw [parseSize hl hk]
    dsimp only
    rw [if_neg (by omega)]
    exact ih []
  | tail h hx _ ih =>
    rw [chunkT_end, ← hx, readExactT_delivers h]
    exact ih []
  | byte _ ih => rw [chunkT, ih after]; rfl

/-- A chunked body that is being read, with the data `d` left and `rest` following. -/
def EncState {c : Cfg} {ρ : Type} [LawfulReader ρ] (b : HttpChunkedBody c ρ) (d : Bytes) (rest : List Ev) : Prop :=
  (∃ ch, b.chunk = some ch ∧ Enc c (some ch.limit) (trace ch.inner) d rest) ∨
  (b.chunk = none ∧ ∃ s, b.stream = some s ∧ Enc c none (trace s) d rest) ∨
  (b.chunk = none ∧ b.stream = none ∧ d = [] ∧ ∃ s, b.lost = some s ∧ trace s = rest)

/-- ... at its end. -/
def EncEnd {c : Cfg} {ρ : Type} [LawfulReader ρ] (b : HttpChunkedBody c ρ) (rest : List Ev) : Prop :=
  b.chunk = none ∧ b.stream = none ∧ ∃ s, b.lost = some s ∧ trace s = rest

theorem Enc.split {c : Cfg} {k : Nat} {t rest : List Ev} {x d : Bytes} (h : Enc c (some k) (x.map .byte ++ t) d rest)
    (hx : x.length ≤ k) : ∃ d', d = x ++ d' ∧ Enc c (some (k - x.length)) t d' rest := by
  induction x generalizing k d with
  | nil => exact ⟨d, rfl, h⟩
  | cons b x ih =>
    obtain ⟨k, rfl⟩ : ∃ j, k = j + 1 := ⟨k - 1, by simp at hx; omega⟩
    generalize ht : (b :: x).map Ev.byte ++ t = u at h
    cases h with
    | byte h =>
      simp only [List.map_cons, List.cons_append, List.cons.injEq, Ev.byte.injEq] at ht
      obtain ⟨rfl, rfl⟩ := ht
      obtain ⟨d', rfl, h'⟩ := ih h (by simpa using hx)
      exact ⟨d', rfl, by simpa using h'⟩

section
variable {c : Cfg} {ρ : Type} [LawfulReader ρ]

theorem HttpBodyChunk.new_enc {s : ρ} {d : Bytes} {rest : List Ev} (h : Enc c none (trace s) d rest) :
    (∃ s', HttpBodyChunk.new c s = (.ok none, s') ∧ d = [] ∧ trace s' = rest) ∨
    (∃ ch s', HttpBodyChunk.new c s = (.ok (some ch), s') ∧ 0 < ch.limit ∧ Enc c (some ch.limit) (trace ch.inner) d rest) := by
  generalize ht : HttpIo.trace s = t at h
  cases h with
  | last h hl =>
    left
    subst ht
    obtain ⟨s', h1, h2⟩ := expectNext_line (unsignedText_rawLine hl) h
    refine ⟨s', ?_, rfl, h2⟩
    unfold HttpBodyChunk.new
    rw [h1]; dsimp only
    rw [parseSize hl (by omega)]; rfl
  | @size _ t1 _ l d k h hl hk he =>
    right
    subst ht
    obtain ⟨s', h1, h2⟩ := expectNext_line (unsignedText_rawLine hl) h
    refine ⟨⟨s', k + 1⟩, s', ?_, by simp, by dsimp only; rw [h2]; exact he⟩
    unfold HttpBodyChunk.new
    rw [h1]; dsimp only
    rw [parseSize hl hk]
    dsimp only
    rw [if_neg (by omega)]

variable [ZeroReader ρ]

theorem HttpChunkedBody.read_enc (b : HttpChunkedBody c ρ) (n : Nat) (hn : 0 < n) {d : Bytes} {rest : List Ev}
    (h : EncState b d rest) :
    (∃ x y, x ≠ [] ∧ d = x ++ y ∧ (HttpChunkedBody.readImpl b n).1 = .ok x ∧
      EncState (HttpChunkedBody.readImpl b n).2 y rest) ∨
    (d = [] ∧ (HttpChunkedBody.readImpl b n).1 = .ok [] ∧ EncEnd (HttpChunkedBody.readImpl b n).2 rest) := by
  fun_induction HttpChunkedBody.readImpl b n with
  | case1 b chunk hc e chunk' hr =>
    rcases h with ⟨ch, h1, h2⟩ | ⟨h1, _⟩ | ⟨h1, _⟩
    · rw [hc] at h1; simp only [Option.some.injEq] at h1; subst h1
      exfalso
      rw [Take.read_def] at hr; unfold Take.readImpl at hr
      by_cases h0 : chunk.limit = 0
      · rw [if_pos h0] at hr; simp at hr
      · rw [if_neg h0] at hr
        have hst := LawfulReader.read_step chunk.inner (min n chunk.limit) (by omega)
        rcases hin : read chunk.inner (min n chunk.limit) with ⟨res, i⟩
        rw [hin] at hr hst
        cases res with
        | ok bs => simp at hr
        | error e' =>
          have := hst.error_inv
          rw [this] at h2
          obtain ⟨k, hk⟩ : ∃ k, chunk.limit = k + 1 := ⟨chunk.limit - 1, by omega⟩
          rw [hk] at h2
          cases h2
    · rw [hc] at h1; simp at h1
    · rw [hc] at h1; simp at h1
  | case2 b chunk hc chunk' hr e s he =>
    rcases h with ⟨ch, h1, h2⟩ | ⟨h1, _⟩ | ⟨h1, _⟩
    · rw [hc] at h1; simp only [Option.some.injEq] at h1; subst h1
      exfalso
      have hz : chunk.limit = 0 ∧ chunk'.inner = chunk.inner := by
        rw [Take.read_def] at hr; unfold Take.readImpl at hr
        by_cases h0 : chunk.limit = 0
        · rw [if_pos h0] at hr; simp only [Prod.mk.injEq] at hr; exact ⟨h0, by rw [hr.2]⟩
        · exfalso
          rw [if_neg h0] at hr
          have hst := LawfulReader.read_step chunk.inner (min n chunk.limit) (by omega)
          rcases hin : read chunk.inner (min n chunk.limit) with ⟨res, i⟩
          rw [hin] at hr hst
          cases res with
          | error e' => simp at hr
          | ok bs =>
            simp only [Prod.mk.injEq, Except.ok.injEq] at hr
            obtain ⟨rfl, _⟩ := hr
            rcases hst.ok_inv with ⟨_, h4, _⟩ | ⟨h4, _⟩
            · rw [h4] at h2
              obtain ⟨k, hk⟩ : ∃ k, chunk.limit = k + 1 := ⟨chunk.limit - 1, by omega⟩
              rw [hk] at h2; cases h2
            · exact absurd rfl h4
      rw [hz.1] at h2
      generalize ht : HttpIo.trace chunk.inner = t at h2
      cases h2 with
      | @tail _ t1 _ x _ h5 h6 h7 =>
        have := readExactT_delivers h5
        rw [h6, ← ht] at this
        obtain ⟨s', h8, _⟩ := readExact_eq this
        rw [hz.2, h8] at he; simp at he
    · rw [hc] at h1; simp at h1
    · rw [hc] at h1; simp at h1
  | case3 b chunk hc chunk' hr bs s he ih =>
    apply ih
    rcases h with ⟨ch, h1, h2⟩ | ⟨h1, _⟩ | ⟨h1, _⟩
    · rw [hc] at h1; simp only [Option.some.injEq] at h1; subst h1
      right; left
      refine ⟨rfl, s, rfl, ?_⟩
      have hz : chunk.limit = 0 ∧ chunk'.inner = chunk.inner := by
        rw [Take.read_def] at hr; unfold Take.readImpl at hr
        by_cases h0 : chunk.limit = 0
        · rw [if_pos h0] at hr; simp only [Prod.mk.injEq] at hr; exact ⟨h0, by rw [hr.2]⟩
        · exfalso
          rw [if_neg h0] at hr
          have hst := LawfulReader.read_step chunk.inner (min n chunk.limit) (by omega)
          rcases hin : read chunk.inner (min n chunk.limit) with ⟨res, i⟩
          rw [hin] at hr hst
          cases res with
          | error e' => simp at hr
          | ok bs =>
            simp only [Prod.mk.injEq, Except.ok.injEq] at hr
            obtain ⟨rfl, _⟩ := hr
            rcases hst.ok_inv with ⟨_, h4, _⟩ | ⟨h4, _⟩
            · rw [h4] at h2
              obtain ⟨k, hk⟩ : ∃ k, chunk.limit = k + 1 := ⟨chunk.limit - 1, by omega⟩
              rw [hk] at h2; cases h2
            · exact absurd rfl h4
      rw [hz.1] at h2
      generalize ht : HttpIo.trace chunk.inner = t at h2
      cases h2 with
      | @tail _ t1 _ x _ h5 h6 h7 =>
        have := readExactT_delivers h5
        rw [h6, ← ht] at this
        obtain ⟨s', h8, h9⟩ := readExact_eq this
        rw [hz.2, h8] at he
        simp only [Prod.mk.injEq] at he
        rw [← he.2, h9]; exact h7
    · rw [hc] at h1; simp at h1
    · rw [hc] at h1; simp at h1
  | case4 b chunk hc x xs chunk' hr =>
    rcases h with ⟨ch, h1, h2⟩ | ⟨h1, _⟩ | ⟨h1, _⟩
    · rw [hc] at h1; simp only [Option.some.injEq] at h1; subst h1
      left
      rw [Take.read_def] at hr; unfold Take.readImpl at hr
      by_cases h0 : chunk.limit = 0
      · rw [if_pos h0] at hr; simp at hr
      · rw [if_neg h0] at hr
        have hst := LawfulReader.read_step chunk.inner (min n chunk.limit) (by omega)
        rcases hin : read chunk.inner (min n chunk.limit) with ⟨res, i⟩
        rw [hin] at hr hst
        cases res with
        | error e' => simp at hr
        | ok bs =>
          simp only [Prod.mk.injEq, Except.ok.injEq] at hr
          obtain ⟨rfl, rfl⟩ := hr
          have hsp := hst.split
          have hle := hst.length_le
          dsimp only at hsp
          rw [hsp] at h2
          obtain ⟨d', rfl, h3⟩ := h2.split (by omega)
          exact ⟨_, d', by simp, rfl, rfl, .inl ⟨_, rfl, h3⟩⟩
    · rw [hc] at h1; simp at h1
    · rw [hc] at h1; simp at h1
  | case5 b hc stream hst e s hn' =>
    rcases h with ⟨ch, h1, h2⟩ | ⟨_, s1, h1, h2⟩ | ⟨_, h1, _⟩
    · rw [hc] at h1; simp at h1
    · rw [hst] at h1; simp only [Option.some.injEq] at h1; subst h1
      rcases HttpBodyChunk.new_enc h2 with ⟨s', h3, _⟩ | ⟨ch, s', h3, _⟩ <;> (rw [hn'] at h3; simp at h3)
    · rw [hst] at h1; simp at h1
  | case6 b hc stream hst chunk s hn' ih =>
    apply ih
    rcases h with ⟨ch, h1, h2⟩ | ⟨_, s1, h1, h2⟩ | ⟨_, h1, _⟩
    · rw [hc] at h1; simp at h1
    · rw [hst] at h1; simp only [Option.some.injEq] at h1; subst h1
      rcases HttpBodyChunk.new_enc h2 with ⟨s', h3, _⟩ | ⟨ch, s', h3, _, h4⟩
      · rw [hn'] at h3; simp at h3
      · rw [hn'] at h3
        simp only [Prod.mk.injEq, Except.ok.injEq, Option.some.injEq] at h3
        obtain ⟨rfl, rfl⟩ := h3
        exact .inl ⟨_, rfl, h4⟩
    · rw [hst] at h1; simp at h1
  | case7 b hc stream hst s hn' =>
    rcases h with ⟨ch, h1, h2⟩ | ⟨_, s1, h1, h2⟩ | ⟨_, h1, _⟩
    · rw [hc] at h1; simp at h1
    · rw [hst] at h1; simp only [Option.some.injEq] at h1; subst h1
      right
      rcases HttpBodyChunk.new_enc h2 with ⟨s', h3, h4, h5⟩ | ⟨ch, s', h3, _, h4⟩
      · rw [hn'] at h3
        simp only [Prod.mk.injEq, true_and] at h3
        subst h3
        exact ⟨h4, rfl, hc, rfl, s, rfl, h5⟩
      · rw [hn'] at h3; simp at h3
    · rw [hst] at h1; simp at h1
  | case8 b hc hst =>
    rcases h with ⟨ch, h1, h2⟩ | ⟨_, s1, h1, h2⟩ | ⟨_, _, h1, s, h2, h3⟩
    · rw [hc] at h1; simp at h1
    · rw [hst] at h1; simp at h1
    · right; exact ⟨h1, rfl, hc, hst, s, h2, h3⟩

theorem EncEnd.state {b : HttpChunkedBody c ρ} {rest : List Ev} (h : EncEnd b rest) : EncState b [] rest :=
  .inr (.inr ⟨h.1, h.2.1, rfl, h.2.2⟩)

theorem EncEnd.under {b : HttpChunkedBody c ρ} {rest : List Ev} (h : EncEnd b rest) :
    ∃ s, (HttpBody.Chunked b).under = some s ∧ trace s = rest := by
  obtain ⟨h1, h2, s, h3, h4⟩ := h
  refine ⟨s, ?_, h4⟩
  unfold HttpBody.under
  dsimp only
  rw [h1, h2]; exact h3

theorem HttpChunkedBody.read_def (b : HttpChunkedBody c ρ) (n : Nat) : read b n = HttpChunkedBody.readImpl b n := rfl

/-- Reading to the end leaves the stream right after the last size line. -/
theorem HttpChunkedBody.calls_end {b : HttpChunkedBody c ρ} {d : Bytes} {rest : List Ev} {sizes : List Nat}
    (hp : Positive sizes) (h : EncState b d rest) (he : .ok [] ∈ (calls b sizes).1) : EncEnd (calls b sizes).2 rest := by
  have main : ∀ sizes, Positive sizes → ∀ b : HttpChunkedBody c ρ, EncEnd b rest → EncEnd (calls b sizes).2 rest := by
    intro sizes
    induction sizes with
    | nil => intro _ b h; exact h
    | cons n ns ih =>
      intro hp b h
      rw [calls]
      apply ih hp.tail
      rw [HttpChunkedBody.read_def]
      rcases HttpChunkedBody.read_enc b n (hp n (by simp)) h.state with ⟨x, y, h1, h2, _⟩ | ⟨_, _, h3⟩
      · simp at h2; exact absurd h2.1 h1
      · exact h3
  induction sizes generalizing b d with
  | nil => simp [calls] at he
  | cons n ns ih =>
    rw [calls] at he ⊢
    dsimp only at he ⊢
    have := HttpChunkedBody.read_enc b n (hp n (by simp)) h
    rw [HttpChunkedBody.read_def] at he ⊢
    rcases this with ⟨x, y, h1, h2, h3, h4⟩ | ⟨_, h2, h3⟩
    · rw [h3] at he
      simp only [List.mem_cons, Except.ok.injEq] at he
      rcases he with he | he
      · exact absurd he.symm h1
      · exact ih hp.tail h4 he
    · exact main ns hp.tail _ h3

theorem HttpBody.calls_chunked (b : HttpChunkedBody c ρ) (sizes : List Nat) :
    calls (HttpBody.Chunked b) sizes = ((calls b sizes).1, .Chunked (calls b sizes).2) := by
  induction sizes generalizing b with
  | nil => rfl
  | cons n ns ih =>
    have : read (HttpBody.Chunked b) n = ((read b n).1, .Chunked (read b n).2) := rfl
    rw [calls_cons _ _ _ this, ih, calls]

theorem HttpBody.calls_limited (t : Take ρ) (sizes : List Nat) :
    calls (HttpBody.Limited t : HttpBody c ρ) sizes = ((calls t sizes).1, .Limited (calls t sizes).2) := by
  induction sizes generalizing t with
  | nil => rfl
  | cons n ns ih =>
    have : read (HttpBody.Limited t : HttpBody c ρ) n = ((read t n).1, .Limited (read t n).2) := rfl
    rw [calls_cons _ _ _ this, ih, calls]

theorem HttpBody.calls_tilClose (t : ρ) (sizes : List Nat) :
    calls (HttpBody.ReadTilClose t : HttpBody c ρ) sizes = ((calls t sizes).1, .ReadTilClose (calls t sizes).2) := by
  induction sizes generalizing t with
  | nil => rfl
  | cons n ns ih =>
    have : read (HttpBody.ReadTilClose t : HttpBody c ρ) n = ((read t n).1, .ReadTilClose (read t n).2) := rfl
    rw [calls_cons _ _ _ this, ih, calls]

end

/-! ### Truncated chunked bodies -/

theorem expectNextT_ended {c : Cfg} {t t' : List Ev} {p : Bytes} (h : Delivers c t p t') (he : Ended c t')
    (hp : ¬ HasCrLf p) : ∃ u, expectNextT c t = (.error .unexpectedEof, u) := by
  unfold expectNextT
  rw [innerNextT_prefix h [] (by simpa using hp), innerNextT_ended he]
  exact ⟨_, rfl⟩

/-- A strict prefix of a line and its CR LF has no CR LF. -/
theorem strict_prefix_line {l p : Bytes} (hl : ¬ HasCrLf l) (hp : p <+: l ++ [13, 10]) (hne : p ≠ l ++ [13, 10]) :
    ¬ HasCrLf p := by
  have h1 : p <+: l ++ [13] := by
    rw [show l ++ [13, 10] = (l ++ [13]) ++ [10] by simp] at hp hne
    rcases List.prefix_concat_iff.1 hp with h | h
    · exact absurd h hne
    · exact h
  intro hc
  obtain ⟨q, hq⟩ := h1
  exact not_hasCrLf_cr hl (by rw [← hq]; exact hasCrLf_append_left hc)

theorem Spec.Delivers.faultless {c : Cfg} {t t' : List Ev} {p : Bytes} (h : Delivers c t p t')
    (hf : ∀ e, Ev.fault e ∉ t) : t = p.map .byte ++ t' := by
  induction h with
  | nil => rfl
  | byte b _ ih => rw [ih fun e he => hf e (by simp [he])]; rfl
  | @retry e _ _ _ _ _ _ _ => exact absurd (by simp) (hf e)

/-- Inside a chunk, delivered data is passed on, or an interrupted call ends the body. -/
theorem chunkT_delivers {c : Cfg} {after t t' : List Ev} {q : Bytes} {k : Nat} (h : Delivers c t q t') (hk : q.length ≤ k) :
    chunkT c after (some k) t = q.map .byte ++ chunkT c after (some (k - q.length)) t' ∨
    ∃ p e, p <+: q ∧ chunkT c after (some k) t = p.map .byte ++ .fault e :: after ∧ ∃ e, Ev.fault e ∈ t := by
  induction h generalizing k with
  | nil => left; rfl
  | @byte b t t' bs _ ih =>
    obtain ⟨k, rfl⟩ : ∃ j, k = j + 1 := ⟨k - 1, by simp at hk; omega⟩
    rw [chunkT]
    rcases ih (k := k) (by simpa using hk) with h | ⟨p, e, h1, h2, e', h3⟩
    · left; rw [h]; simp
    · right
      exact ⟨b :: p, e, (List.prefix_cons_inj b).2 h1, by rw [h2]; rfl, e', by simp [h3]⟩
  | @retry e t t' b bs hr _ ih =>
    obtain ⟨k, rfl⟩ : ∃ j, k = j + 1 := ⟨k - 1, by simp at hk; omega⟩
    right
    refine ⟨[], e, List.nil_prefix, by rw [chunkT]; rfl, e, by simp⟩

theorem prefix_append_cases {p a b : Bytes} (h : p <+: a ++ b) : (p <+: a ∧ p ≠ a) ∨ ∃ q, p = a ++ q ∧ q <+: b := by
  obtain ⟨r, hr⟩ := h
  rcases List.append_eq_append_iff.1 hr with ⟨a', h1, h2⟩ | ⟨c', h1, h2⟩
  · by_cases hp : p = a
    · exact .inr ⟨[], by simp [hp], List.nil_prefix⟩
    · exact .inl ⟨⟨a', h1.symm⟩, hp⟩
  · exact .inr ⟨c', h1, ⟨r, h2.symm⟩⟩

theorem toIo_not_interrupted {c : Cfg} {e : Err} (h : e.isInterrupted = false) : (c.toIo e).isInterrupted = false := by
  unfold Cfg.toIo; split
  · rfl
  · exact h

theorem eofErr_not_interrupted (c : Cfg) : c.eofErr.isInterrupted = false := by
  unfold Cfg.eofErr; split <;> rfl

/-- Nothing delivered and the stream over, inside a chunk. -/
theorem chunkT_ended {c : Cfg} {after t : List Ev} {k : Nat} (he : Ended c t) :
    ∃ e, chunkT c after (some (k + 1)) t = .fault e :: after ∧ ((∀ e, Ev.fault e ∉ t) → e.isInterrupted = false) := by
  cases t with
  | nil => exact ⟨c.eofErr, by rw [chunkT], fun _ => eofErr_not_interrupted c⟩
  | cons ev t =>
    obtain ⟨e, rfl, _⟩ := he ev (by simp)
    exact ⟨e, by rw [chunkT], fun h => absurd (by simp) (h e)⟩

theorem Spec.Delivers.mem {c : Cfg} {t t' : List Ev} {p : Bytes} (h : Delivers c t p t') {ev : Ev} (hev : ev ∈ t') : ev ∈ t := by
  obtain ⟨x, hx, _⟩ := h.suffix
  rw [hx]; simp [hev]

/-- A chunked body cut off anywhere before the end of its last size line. -/
theorem chunkT_truncated {c : Cfg} {t t' : List Ev} {p last : Bytes} {chs : List Chunk} (hd : Delivers c t p t')
    (he : Ended c t') (hp : p <+: chunkedBytes chs last) (hne : p ≠ chunkedBytes chs last)
    (hs : ∀ ch ∈ chs, ch.Sized) (hl : UnsignedText 16 last 0) :
    ∃ d e, chunkT c [] none t = d.map .byte ++ [.fault e] ∧ d <+: chunkedData chs ∧
      ((∀ e, Ev.fault e ∉ t) → e.isInterrupted = false) := by
  induction chs generalizing t p with
  | nil =>
    simp only [chunkedBytes, List.map_nil, List.flatten_nil, List.nil_append] at hp hne
    obtain ⟨u, hu⟩ := expectNextT_ended hd he (strict_prefix_line (unsignedText_rawLine hl).2.1 hp hne)
    refine ⟨[], c.toIo .unexpectedEof, ?_, List.nil_prefix, fun _ => toIo_not_interrupted rfl⟩
    rw [chunkT_size, hu]; rfl
  | cons ch chs ih =>
    obtain ⟨g1, g2, g3, g4⟩ := hs ch (by simp)
    have hbytes : chunkedBytes (ch :: chs) last = (ch.size ++ [13, 10]) ++ (ch.data ++ (ch.tail ++ chunkedBytes chs last)) := by
      simp [chunkedBytes, Chunk.bytes]
    rw [hbytes] at hp hne
    rcases prefix_append_cases hp with ⟨h1, h2⟩ | ⟨q, rfl, hq⟩
    · obtain ⟨u, hu⟩ := expectNextT_ended hd he (strict_prefix_line (unsignedText_rawLine g1).2.1 h1 h2)
      refine ⟨[], c.toIo .unexpectedEof, ?_, List.nil_prefix, fun _ => toIo_not_interrupted rfl⟩
      rw [chunkT_size, hu]; rfl
    · obtain ⟨t1, hd1, hd2⟩ := hd.split
      have hline : chunkT c [] none t = chunkT c [] (some ch.data.length) t1 := by
        have hr := unsignedText_rawLine g1
        rw [chunkT_size]
        unfold expectNextT
        rw [innerNextT_line hr.2.1 hd1, lineOutcome, if_neg (by simp [hr.1]), if_pos ((validUtf8_iff _).2 hr.2.2)]
        dsimp only
        rw [parseSize g1 g3]
        dsimp only
        rw [if_neg (by have := List.length_pos_iff.2 g2; omega)]
      rw [hline]
      have hdata : chunkedData (ch :: chs) = ch.data ++ chunkedData chs := by simp [chunkedData]
      rw [hdata]
      have hno : (∀ e, Ev.fault e ∉ t) → ∀ e, Ev.fault e ∉ t1 := fun h e hm => h e (hd1.mem hm)
      rcases prefix_append_cases hq with ⟨h1, h2⟩ | ⟨r, rfl, hr⟩
      · -- cut inside the data
        have hlen : q.length < ch.data.length := by
          obtain ⟨z, hz⟩ := h1
          rw [← hz, List.length_append]
          have : z ≠ [] := by rintro rfl; simp at hz; exact h2 hz
          have := List.length_pos_iff.2 this
          omega
        rcases chunkT_delivers (after := []) hd2 (Nat.le_of_lt hlen) with h3 | ⟨p', e, h3, h4, e', h5⟩
        · obtain ⟨k, hk⟩ : ∃ k, ch.data.length - q.length = k + 1 := ⟨ch.data.length - q.length - 1, by omega⟩
          rw [hk] at h3
          obtain ⟨e, h6, h7⟩ := chunkT_ended (after := []) (k := k) he
          exact ⟨q, e, by rw [h3, h6], h1.trans (List.prefix_append _ _), fun h => h7 fun e hm => hno h e (hd2.mem hm)⟩
        · exact ⟨p', e, h4, (h3.trans h1).trans (List.prefix_append _ _), fun h => absurd h5 (hno h e')⟩
      · obtain ⟨t2, hd3, hd4⟩ := hd2.split
        rcases chunkT_delivers (after := []) hd3 (Nat.le_refl _) with h3 | ⟨p', e, h3, h4, e', h5⟩
        · rw [h3, Nat.sub_self, chunkT_end]
          rcases prefix_append_cases hr with ⟨h1, h2⟩ | ⟨r', rfl, hr'⟩
          · -- cut in the two bytes after the data
            have hlen : r.length < 2 := by
              obtain ⟨z, hz⟩ := h1
              rw [← g4, ← hz, List.length_append]
              have : z ≠ [] := by rintro rfl; simp at hz; exact h2 hz
              have := List.length_pos_iff.2 this
              omega
            rw [readExactT_short hd4 hlen he]
            exact ⟨ch.data, c.eofErr, rfl, List.prefix_append _ _, fun _ => eofErr_not_interrupted c⟩
          · obtain ⟨t3, hd5, hd6⟩ := hd4.split
            rw [← g4, readExactT_delivers hd5]
            dsimp only
            obtain ⟨d, e, h7, h8, h9⟩ := ih hd6 hr' (by rintro rfl; exact hne rfl) (fun c hc => hs c (by simp [hc]))
            refine ⟨ch.data ++ d, e, by rw [h7]; simp, (List.prefix_append_right_inj _).2 h8, fun h => h9 ?_⟩
            exact fun e hm => hno h e (hd3.mem (hd5.mem hm))
        · exact ⟨p', e, h4, h3.trans (List.prefix_append _ _), fun h => absurd h5 (hno h e')⟩

/-- What exactly a chunked body does when the stream ends too early and does not fail before. -/
theorem chunkT_cut {c : Cfg} {p last : Bytes} {chs : List Chunk} (hp : p <+: chunkedBytes chs last)
    (hne : p ≠ chunkedBytes chs last) (hs : ∀ ch ∈ chs, ch.Sized) (hl : UnsignedText 16 last 0) :
    (∃ pre q, pre <+: chs ∧ p = (pre.map Chunk.bytes).flatten ++ q ∧ ¬ HasCrLf q ∧
      chunkT c [] none (p.map .byte) = (chunkedData pre).map .byte ++ [.fault (c.toIo .unexpectedEof)]) ∨
    ∃ pre ch q, pre ++ [ch] <+: chs ∧ p = (pre.map Chunk.bytes).flatten ++ ch.size ++ [13, 10] ++ q ∧
      q <+: ch.data ++ ch.tail ∧ q ≠ ch.data ++ ch.tail ∧
      chunkT c [] none (p.map .byte) = (chunkedData pre ++ q.take ch.data.length).map .byte ++ [.fault c.eofErr] := by
  have hend : Ended c [] := by intro ev h; simp at h
  induction chs generalizing p with
  | nil =>
    simp only [chunkedBytes, List.map_nil, List.flatten_nil, List.nil_append] at hp hne
    have hq := strict_prefix_line (unsignedText_rawLine hl).2.1 hp hne
    obtain ⟨u, hu⟩ := expectNextT_ended (delivers_map' c p) hend hq
    refine .inl ⟨[], p, List.nil_prefix, rfl, hq, ?_⟩
    rw [chunkT_size, hu]; rfl
  | cons ch chs ih =>
    obtain ⟨g1, g2, g3, g4⟩ := hs ch (by simp)
    have hbytes : chunkedBytes (ch :: chs) last = (ch.size ++ [13, 10]) ++ ((ch.data ++ ch.tail) ++ chunkedBytes chs last) := by
      simp [chunkedBytes, Chunk.bytes]
    rw [hbytes] at hp hne
    rcases prefix_append_cases hp with ⟨h1, h2⟩ | ⟨q, rfl, hq⟩
    · have hq := strict_prefix_line (unsignedText_rawLine g1).2.1 h1 h2
      obtain ⟨u, hu⟩ := expectNextT_ended (delivers_map' c p) hend hq
      refine .inl ⟨[], p, List.nil_prefix, rfl, hq, ?_⟩
      rw [chunkT_size, hu]; rfl
    · have hline : ∀ t, chunkT c [] none ((ch.size ++ [13, 10]).map .byte ++ t) = chunkT c [] (some ch.data.length) t := by
        intro t
        have hr := unsignedText_rawLine g1
        rw [chunkT_size]
        unfold expectNextT
        rw [innerNextT_line hr.2.1 (delivers_map c _ t), lineOutcome, if_neg (by simp [hr.1]),
          if_pos ((validUtf8_iff _).2 hr.2.2)]
        dsimp only
        rw [parseSize g1 g3]
        dsimp only
        rw [if_neg (by have := List.length_pos_iff.2 g2; omega)]
      rw [List.map_append, hline]
      rcases prefix_append_cases hq with ⟨h1, h2⟩ | ⟨r, rfl, hr⟩
      · refine .inr ⟨[], ch, q, by simp, by simp, h1, h2, ?_⟩
        simp only [chunkedData, List.map_nil, List.flatten_nil, List.nil_append]
        rcases prefix_append_cases h1 with ⟨h3, h4⟩ | ⟨r, rfl, hr⟩
        · have hlen : q.length < ch.data.length := by
            obtain ⟨z, hz⟩ := h3
            rw [← hz, List.length_append]
            have : z ≠ [] := by rintro rfl; simp at hz; exact h4 hz
            have := List.length_pos_iff.2 this
            omega
          have := chunkT_bytes (c := c) (after := []) (t := []) (Nat.le_of_lt hlen)
          rw [List.append_nil] at this
          rw [this, List.take_of_length_le (Nat.le_of_lt hlen)]
          obtain ⟨k, hk⟩ : ∃ k, ch.data.length - q.length = k + 1 := ⟨ch.data.length - q.length - 1, by omega⟩
          rw [hk, chunkT]
        · have hlen : r.length < 2 := by
            obtain ⟨z, hz⟩ := hr
            rw [← g4, ← hz, List.length_append]
            have : z ≠ [] := by rintro rfl; simp at hz; exact h2 (by rw [hz])
            have := List.length_pos_iff.2 this
            omega
          rw [List.map_append, chunkT_bytes (Nat.le_refl _), Nat.sub_self, chunkT_end,
            readExactT_short (delivers_map' c r) hlen hend, List.take_left' rfl]
      · have hrest : chunkT c [] (some ch.data.length) ((ch.data ++ ch.tail ++ r).map .byte) =
            ch.data.map .byte ++ chunkT c [] none (r.map .byte) := by
          rw [List.append_assoc, List.map_append, chunkT_bytes (Nat.le_refl _), Nat.sub_self, chunkT_end, List.map_append,
            ← g4, readExactT_delivers (delivers_map c ch.tail _)]
        rw [hrest]
        rcases ih hr (by rintro rfl; exact hne rfl) (fun c hc => hs c (by simp [hc])) with
          ⟨pre, q, k1, k2, k3, k4⟩ | ⟨pre, ch', q, k1, k2, k3, k4, k5⟩
        · refine .inl ⟨ch :: pre, q, (List.prefix_cons_inj _).2 k1, ?_, k3, ?_⟩
          · rw [k2]; simp [Chunk.bytes]
          · rw [k4]; simp [chunkedData]
        · refine .inr ⟨ch :: pre, ch', q, (List.prefix_cons_inj _).2 k1, ?_, k3, k4, ?_⟩
          · rw [k2]; simp [Chunk.bytes]
          · rw [k5]; simp [chunkedData]

/-- On every stream a chunked body delivers bytes and then ends, with at most one failure, at the end. -/
theorem chunkT_shape (c : Cfg) (m : Option Nat) (t : List Ev) :
    ∃ d : Bytes, chunkT c [] m t = d.map .byte ∨ ∃ e, chunkT c [] m t = d.map .byte ++ [.fault e] := by
  have main : ∀ after m t, ∃ d : Bytes, chunkT c after m t = d.map .byte ∨
      (∃ e, chunkT c after m t = d.map .byte ++ [.fault e]) ∨ ∃ e, chunkT c after m t = d.map .byte ++ .fault e :: after := by
    intro after m t
    fun_induction chunkT c after m t with
    | case1 => exact ⟨[], .inr (.inl ⟨_, rfl⟩)⟩
    | case2 => exact ⟨[], .inr (.inl ⟨_, rfl⟩)⟩
    | case3 => exact ⟨[], .inl rfl⟩
    | case4 after t l t' h size hs h0 ih =>
      obtain ⟨d, h | h | h⟩ := ih
      · exact ⟨d, .inl h⟩
      · exact ⟨d, .inr (.inl h)⟩
      · exact ⟨d, .inr (.inl h)⟩
    | case5 => exact ⟨[], .inr (.inr ⟨_, rfl⟩)⟩
    | case6 after t _ t' h ih =>
      obtain ⟨d, h | h | h⟩ := ih
      · exact ⟨d, .inl h⟩
      · exact ⟨d, .inr (.inl h)⟩
      · exact ⟨d, .inr (.inl h)⟩
    | case7 => exact ⟨[], .inr (.inr ⟨_, rfl⟩)⟩
    | case8 after k b t ih =>
      obtain ⟨d, h | ⟨e, h⟩ | ⟨e, h⟩⟩ := ih
      · exact ⟨b :: d, .inl (by rw [h]; rfl)⟩
      · exact ⟨b :: d, .inr (.inl ⟨e, by rw [h]; rfl⟩)⟩
      · exact ⟨b :: d, .inr (.inr ⟨e, by rw [h]; rfl⟩)⟩
    | case9 => exact ⟨[], .inr (.inr ⟨_, rfl⟩)⟩
  obtain ⟨d, h | h | h⟩ := main [] m t
  · exact ⟨d, .inl h⟩
  · exact ⟨d, .inr h⟩
  · exact ⟨d, .inr h⟩

/-! ### `Take` over a schedule of calls -/

theorem seen_length {rs : List (Except Err Bytes)} : bytesOf (seen rs) = received rs := by
  have hb : ∀ (x : Bytes) t, bytesOf (x.map .byte ++ t) = x ++ bytesOf t := by
    intro x t
    induction x with
    | nil => rfl
    | cons b x ih => simp [bytesOf, ih]
  induction rs with
  | nil => rfl
  | cons r rs ih =>
    cases r with
    | error e => simpa [seen, bytesOf, received] using ih
    | ok x => simp [seen, received, hb, ih]

theorem Take.calls {ρ : Type} [LawfulReader ρ] (t : Take ρ) {sizes : List Nat} (hp : Positive sizes) :
    trace t.inner = seen (Spec.calls t sizes).1 ++ trace (Spec.calls t sizes).2.inner ∧
    (Spec.calls t sizes).2.limit + (received (Spec.calls t sizes).1).length = t.limit ∧
    (.ok [] ∈ (Spec.calls t sizes).1 → (Spec.calls t sizes).2.limit = 0 ∨ trace (Spec.calls t sizes).2.inner = []) := by
  have hend : ∀ sizes (t : Take ρ), Positive sizes → t.limit = 0 ∨ trace t.inner = [] →
      (Spec.calls t sizes).2.limit = 0 ∨ trace (Spec.calls t sizes).2.inner = [] := by
    intro sizes
    induction sizes with
    | nil => intro t _ h; exact h
    | cons n ns ih =>
      intro t hp h
      have hn := hp n (by simp)
      rw [Spec.calls]
      apply ih _ hp.tail
      rw [Take.read_def]
      unfold Take.readImpl
      by_cases h0 : t.limit = 0
      · rw [if_pos h0]; exact .inl h0
      · rw [if_neg h0]
        rcases h with h | h
        · exact absurd h h0
        · obtain ⟨h1, h2⟩ := read_nil (s := t.inner) (n := min n t.limit) (by omega) h
          rcases hr : read t.inner (min n t.limit) with ⟨r, i⟩
          rw [hr] at h1 h2
          dsimp only at h1 h2
          subst h1
          exact .inr h2
  induction sizes generalizing t with
  | nil => simp [Spec.calls, seen, received]
  | cons n ns ih =>
    have hn := hp n (by simp)
    obtain ⟨h1, h2, h3⟩ := ih (read t n).2 hp.tail
    rw [Spec.calls]
    dsimp only
    have hh := hend ns (read t n).2 hp.tail
    rcases hr : read t n with ⟨r, t1⟩
    rw [hr] at h1 h2 h3 hh
    dsimp only at h1 h2 h3 hh ⊢
    rw [Take.read_def] at hr
    unfold Take.readImpl at hr
    by_cases h0 : t.limit = 0
    · rw [if_pos h0] at hr
      simp only [Prod.mk.injEq] at hr
      obtain ⟨rfl, rfl⟩ := hr
      exact ⟨by simpa [seen] using h1, by simpa [received] using h2, fun _ => hh (.inl h0)⟩
    · rw [if_neg h0] at hr
      have hst := LawfulReader.read_step t.inner (min n t.limit) (by omega)
      rcases hi : read t.inner (min n t.limit) with ⟨r', i⟩
      rw [hi] at hr hst
      cases r' with
      | error e =>
        simp only [Prod.mk.injEq] at hr
        obtain ⟨rfl, rfl⟩ := hr
        refine ⟨?_, h2, ?_⟩
        · rw [hst.error_inv]; dsimp only at h1 ⊢; rw [h1]; rfl
        · intro hm; simp only [List.mem_cons, reduceCtorEq, false_or] at hm; exact h3 hm
      | ok bs =>
        simp only [Prod.mk.injEq] at hr
        obtain ⟨rfl, rfl⟩ := hr
        have hle := hst.length_le
        refine ⟨?_, ?_, ?_⟩
        · rw [hst.split]; dsimp only at h1 ⊢; rw [h1]; simp [seen]
        · dsimp only at h2
          simp only [received, List.length_append]
          omega
        · intro hm
          simp only [List.mem_cons, Except.ok.injEq] at hm
          rcases hm with hm | hm
          · rcases hst.ok_inv with ⟨_, _, h6⟩ | ⟨h5, _⟩
            · exact hh (.inr h6)
            · exact absurd hm.symm h5
          · exact h3 hm

/-- An ordinary reader with no failure pending answers an empty read with nothing. -/
theorem read_zero_quiet {ρ : Type} [LawfulReader ρ] [ZeroReader ρ] {s : ρ} (h : ∀ e t, trace s ≠ .fault e :: t) :
    ∃ s', read s 0 = (.ok [], s') ∧ trace s' = trace s := by
  rcases ZeroReader.read_zero s with ⟨h1, h2⟩ | ⟨e, t, h1, _⟩
  · rcases hr : read s 0 with ⟨r, s'⟩
    rw [hr] at h1 h2
    exact ⟨s', by rw [show r = _ from h1], h2⟩
  · exact absurd h1 (h e t)

end HttpIo
