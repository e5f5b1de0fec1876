import Verif.Model.Message
import Verif.Spec.Body

/-! What reading does not change: a predicate on the transport that is kept by every `read` is kept by everything that
only reads. -/

namespace HttpIo
open Spec

/-- `P` survives every read. -/
structure ReadKept {σ : Type} [Reader σ] (P : σ → Prop) : Prop where
  read : ∀ s n, P s → P (read s n).2

/-- `P` survives every read with a size of which `A` holds: these are all sizes, or all but zero. -/
structure KeptOn {σ : Type} [Reader σ] (A : Nat → Prop) (P : σ → Prop) : Prop where
  all : ∀ n, 0 < n → A n
  read : ∀ s n, A n → P s → P (read s n).2

theorem ReadKept.on {σ : Type} [Reader σ] {P : σ → Prop} (h : ReadKept P) : KeptOn (fun _ => True) P :=
  ⟨fun _ _ => trivial, fun s n _ hs => h.read s n hs⟩

theorem KeptOn.kept {σ : Type} [Reader σ] {P : σ → Prop} (h : KeptOn (fun _ => True) P) : ReadKept P :=
  ⟨fun s n hs => h.read s n trivial hs⟩

section
variable {c : Cfg} {σ : Type} [LawfulReader σ] {A : Nat → Prop} {P : σ → Prop}

theorem KeptOn.bytesNext (h : KeptOn A P) {s : σ} (hs : P s) : P (bytesNext c s).2 := by
  fun_induction HttpIo.bytesNext c s with
  | case1 s s1 hr => have := h.read s 1 (h.all 1 (by omega)) hs; rwa [hr] at this
  | case2 s b bs s1 hr => have := h.read s 1 (h.all 1 (by omega)) hs; rwa [hr] at this
  | case3 s e s1 hr hret ih => have := h.read s 1 (h.all 1 (by omega)) hs; rw [hr] at this; exact ih this
  | case4 s e s1 hr hret => have := h.read s 1 (h.all 1 (by omega)) hs; rwa [hr] at this

theorem KeptOn.readExact (h : KeptOn A P) {s : σ} {n : Nat} (hs : P s) : P (readExact c s n).2 := by
  fun_induction HttpIo.readExact c s n with
  | case1 s => exact hs
  | case2 s n hn s1 hr => have := h.read s n (h.all n (by omega)) hs; rwa [hr] at this
  | case3 s n hn b bs s1 hr more s2 hrec ih =>
    have := h.read s n (h.all n (by omega)) hs; rw [hr] at this
    have := ih this; rw [hrec] at this; exact this
  | case4 s n hn b bs s1 hr e s2 hrec ih =>
    have := h.read s n (h.all n (by omega)) hs; rw [hr] at this
    have := ih this; rw [hrec] at this; exact this
  | case5 s n hn e s1 hr hret ih => have := h.read s n (h.all n (by omega)) hs; rw [hr] at this; exact ih this
  | case6 s n hn e s1 hr hret => have := h.read s n (h.all n (by omega)) hs; rwa [hr] at this

theorem KeptOn.innerNextLoop (h : KeptOn A P) {s : σ} {line : Bytes} (hs : P s) : P (innerNextLoop c line s).2 := by
  fun_induction HttpIo.innerNextLoop c line s with
  | case1 line s s1 hb => have := h.bytesNext (c := c) hs; rwa [hb] at this
  | case2 line s e s1 hb => have := h.bytesNext (c := c) hs; rwa [hb] at this
  | case3 line s b s1 hb => have := h.bytesNext (c := c) hs; rwa [hb] at this
  | case4 line s b s1 hb => have := h.bytesNext (c := c) hs; rwa [hb] at this
  | case5 line s b s1 hb => have := h.bytesNext (c := c) hs; rwa [hb] at this
  | case6 line s b s1 hb line' hc ih => have := h.bytesNext (c := c) hs; rw [hb] at this; exact ih this

theorem KeptOn.crlfNext (h : KeptOn A P) {s : σ} (hs : P s) : P (crlfNext c s).2 := by
  have := h.innerNextLoop (c := c) (line := []) hs
  unfold HttpIo.crlfNext innerNext
  rcases hi : HttpIo.innerNextLoop c [] s with ⟨_ | _ | _, s1⟩ <;> rw [hi] at this <;> exact this

theorem KeptOn.expectNext (h : KeptOn A P) {s : σ} (hs : P s) : P (expectNext c s).2 := by
  have := h.innerNextLoop (c := c) (line := []) hs
  unfold HttpIo.expectNext innerNext
  rcases hi : HttpIo.innerNextLoop c [] s with ⟨_ | _ | _, s1⟩ <;> rw [hi] at this <;> exact this

theorem KeptOn.gather (h : KeptOn A P) {s : σ} {line : Bytes} (hs : P s) : P (HttpHeaders.gather c line s).2.2 := by
  fun_induction HttpHeaders.gather c line s with
  | case1 line s next s' hn _ ih => have := h.crlfNext (c := c) hs; rw [hn] at this; exact ih this
  | case2 line s next s' hn _ => have := h.crlfNext (c := c) hs; rwa [hn] at this
  | case3 line s item s' _ hn => have := h.crlfNext (c := c) hs; rwa [hn] at this

section
variable [CaseMap]

theorem KeptOn.deserializeLoop (h : KeptOn A P) {s : σ} {item : Option (Except Err Bytes)} {acc : List HttpHeader}
    (hs : P s) : P (HttpHeaders.deserializeLoop c item acc s).2 := by
  fun_induction HttpHeaders.deserializeLoop c item acc s with
  | case1 => exact hs
  | case2 => exact hs
  | case3 acc s line line' item' s' hg hd hok ih =>
    have := h.gather (c := c) (line := line) hs; rw [hg] at this; exact ih this
  | case4 acc s line line' item' s' hg e hok =>
    have := h.gather (c := c) (line := line) hs; rwa [hg] at this
  | case5 acc s line line' item' s' hg hok =>
    have := h.gather (c := c) (line := line) hs; rwa [hg] at this

theorem KeptOn.headers (h : KeptOn A P) {s : σ} (hs : P s) : P (HttpHeaders.deserialize c s).2 := by
  unfold HttpHeaders.deserialize
  have h1 := h.crlfNext (c := c) hs
  rcases hc : HttpIo.crlfNext c s with ⟨item, s1⟩
  rw [hc] at h1
  dsimp only
  have h2 := h.deserializeLoop (c := c) (item := item) (acc := []) h1
  dsimp only at h2
  rcases hd : HttpHeaders.deserializeLoop c item [] s1 with ⟨_ | _ | _, s2⟩ <;> rw [hd] at h2 <;> exact h2

theorem KeptOn.parseHead (h : KeptOn A P) {α : Type} {start : Bytes → Res α} {s : σ} (hs : P s) :
    P (parseHead c start s).2 := by
  unfold HttpIo.parseHead
  have h1 := h.expectNext (c := c) hs
  rcases he : HttpIo.expectNext c s with ⟨_ | line, s1⟩ <;> rw [he] at h1 <;> dsimp only at h1 ⊢
  · exact h1
  · cases start line with
    | err e => exact h1
    | panic => exact h1
    | ok a =>
      dsimp only
      have h2 := h.headers (c := c) h1
      rcases hd : HttpHeaders.deserialize c s1 with ⟨hs | _ | _, s2⟩ <;> rw [hd] at h2 <;> dsimp only at h2 ⊢
      · cases contentLengthOf hs <;> exact h2
      · exact h2
      · exact h2

theorem KeptOn.response (h : KeptOn A P) {s : σ} (hs : P s) : P (HttpResponse.deserialize c s).2 := by
  have := h.parseHead (c := c) (start := parseStatusLine) hs
  unfold HttpResponse.deserialize
  rcases hp : HttpIo.parseHead c parseStatusLine s with ⟨⟨⟨_, _⟩, _, _, _⟩ | _ | _, s1⟩ <;> rw [hp] at this <;> exact this

theorem KeptOn.request (h : KeptOn A P) {s : σ} (hs : P s) : P (HttpRequest.deserialize c s).2 := by
  have := h.parseHead (c := c) (start := parseRequestLine) hs
  unfold HttpRequest.deserialize
  rcases hp : HttpIo.parseHead c parseRequestLine s with ⟨⟨⟨_, _, _⟩, _, _, _⟩ | _ | _, s1⟩ <;> rw [hp] at this <;> exact this

/-- The body of a parsed response sits on the stream that is returned. -/
theorem response_under {s s' : σ} {r : HttpResponse c (BufReader c σ)} (h : HttpResponse.deserialize c s = (.ok r, s')) :
    r.body.under = some (BufReader.new c s') ∧
      ∃ enc len, r.body = HttpBody.new c enc len (BufReader.new c s') := by
  unfold HttpResponse.deserialize at h
  rcases hp : HttpIo.parseHead c parseStatusLine s with ⟨⟨⟨_, _⟩, _, enc, n⟩ | _ | _, s1⟩ <;> rw [hp] at h <;>
    simp only [Prod.mk.injEq, Res.ok.injEq, reduceCtorEq, false_and] at h
  rw [← h.1, ← h.2]
  refine ⟨?_, enc, n, rfl⟩
  dsimp only
  unfold HttpBody.new
  by_cases he : enc = some b!"chunked"
  · rw [if_pos he]; rfl
  · rw [if_neg he]; cases n <;> rfl

end

omit [LawfulReader σ] in
theorem KeptOn.bufReader [Reader σ] {P : σ → Prop} (h : KeptOn A P) : KeptOn A fun r : BufReader c σ => P r.inner := by
  refine ⟨h.all, fun r n hn' hr => ?_⟩
  rw [BufReader.read_def]
  unfold BufReader.readImpl
  by_cases hc : c.std = true
  · rw [if_pos hc]
    by_cases hb : r.buf.isEmpty = true
    · rw [if_pos hb]
      by_cases hn : n ≥ bufCap
      · rw [if_pos hn]; exact h.read _ _ hn' hr
      · rw [if_neg hn]
        have := h.read r.inner bufCap (h.all _ (by unfold bufCap; omega)) hr
        rcases hrd : HttpIo.read r.inner bufCap with ⟨_ | _, i⟩ <;> rw [hrd] at this <;> exact this
    · rw [if_neg hb]; exact hr
  · rw [if_neg hc]; exact h.read _ _ hn' hr

omit [LawfulReader σ] in
theorem KeptOn.take [Reader σ] {P : σ → Prop} (h : KeptOn A P) : KeptOn A fun t : Take σ => P t.inner := by
  refine ⟨h.all, fun t n hn' ht => ?_⟩
  rw [Take.read_def]
  unfold Take.readImpl
  by_cases hl : t.limit = 0
  · rw [if_pos hl]; exact ht
  · rw [if_neg hl]
    have := h.read t.inner (min n t.limit) (by
      rcases Nat.eq_zero_or_pos n with h0 | h0
      · rw [h0, Nat.zero_min]; rwa [h0] at hn'
      · exact h.all _ (by omega)) ht
    rcases hrd : HttpIo.read t.inner (min n t.limit) with ⟨_ | _, i⟩ <;> rw [hrd] at this <;> exact this

theorem KeptOn.chunkNew (h : KeptOn A P) {s : σ} (hs : P s) : P (HttpBodyChunk.new c s).2 ∧
    ∀ ch, (HttpBodyChunk.new c s).1 = .ok (some ch) → P ch.inner := by
  unfold HttpBodyChunk.new
  have h1 := h.expectNext (c := c) hs
  rcases he : HttpIo.expectNext c s with ⟨_ | line, s1⟩ <;> rw [he] at h1 <;> dsimp only at h1 ⊢
  · exact ⟨h1, by simp⟩
  · cases fromStrRadix 16 u64Max line with
    | none => exact ⟨h1, by simp⟩
    | some size =>
      dsimp only
      by_cases h0 : size = 0
      · rw [if_pos h0]; exact ⟨h1, by simp⟩
      · rw [if_neg h0]
        refine ⟨h1, fun ch hch => ?_⟩
        simp only [Except.ok.injEq, Option.some.injEq] at hch
        rw [← hch]; exact h1

/-- `P` holds of every stream in a chunked body. -/
def HttpChunkedBody.All {σ : Type} (P : σ → Prop) (b : HttpChunkedBody c σ) : Prop :=
  (∀ ch, b.chunk = some ch → P ch.inner) ∧ (∀ s, b.stream = some s → P s) ∧ ∀ s, b.lost = some s → P s

theorem KeptOn.chunked [ZeroReader σ] (h : KeptOn A P) : KeptOn A fun b : HttpChunkedBody c σ => b.All P := by
  refine ⟨h.all, fun b n hn' hb => ?_⟩
  show (b.readImpl n).2.All P
  fun_induction HttpChunkedBody.readImpl b n with
  | case1 b chunk hc e chunk' hr =>
    have := h.take.read chunk n hn' (hb.1 _ hc)
    rw [hr] at this
    exact ⟨by simp, hb.2.1, fun s hs => by simp only [Option.some.injEq] at hs; rw [← hs]; exact this⟩
  | case2 b chunk hc chunk' hr e s he =>
    have := h.take.read chunk n hn' (hb.1 _ hc)
    rw [hr] at this
    have := h.readExact (c := c) (n := 2) this
    rw [he] at this
    exact ⟨by simp, hb.2.1, fun s hs => by simp only [Option.some.injEq] at hs; rw [← hs]; exact this⟩
  | case3 b chunk hc chunk' hr bs s he ih =>
    have := h.take.read chunk n hn' (hb.1 _ hc)
    rw [hr] at this
    have := h.readExact (c := c) (n := 2) this
    rw [he] at this
    exact ih ⟨by simp, fun s hs => by simp only [Option.some.injEq] at hs; rw [← hs]; exact this, hb.2.2⟩
  | case4 b chunk hc x xs chunk' hr =>
    have := h.take.read chunk n hn' (hb.1 _ hc)
    rw [hr] at this
    exact ⟨fun ch hs => by simp only [Option.some.injEq] at hs; rw [← hs]; exact this, hb.2⟩
  | case5 b hc stream hs e s hn =>
    have := (h.chunkNew (c := c) (hb.2.1 _ hs)).1
    rw [hn] at this
    exact ⟨hb.1, by simp, fun s hs => by simp only [Option.some.injEq] at hs; rw [← hs]; exact this⟩
  | case6 b hc stream hs chunk s hn ih =>
    have := (h.chunkNew (c := c) (hb.2.1 _ hs)).2 chunk (by rw [hn])
    exact ih ⟨fun ch hs => by simp only [Option.some.injEq] at hs; rw [← hs]; exact this, by simp, hb.2.2⟩
  | case7 b hc stream hs s hn =>
    have := (h.chunkNew (c := c) (hb.2.1 _ hs)).1
    rw [hn] at this
    exact ⟨hb.1, by simp, fun s hs => by simp only [Option.some.injEq] at hs; rw [← hs]; exact this⟩
  | case8 b hc hs => exact hb

/-- `P` holds of every stream in a body. -/
def HttpBody.All {σ : Type} (P : σ → Prop) : HttpBody c σ → Prop
  | .Chunked b => b.All P
  | .Limited t => P t.inner
  | .ReadTilClose s => P s

theorem KeptOn.body [ZeroReader σ] (h : KeptOn A P) : KeptOn A fun b : HttpBody c σ => b.All P := by
  refine ⟨h.all, fun b n hn' hb => ?_⟩
  cases b with
  | Chunked b => exact h.chunked.read b n hn' hb
  | Limited t => exact h.take.read t n hn' hb
  | ReadTilClose s => exact h.read s n hn' hb

omit [LawfulReader σ] in
theorem HttpBody.All.new {P : σ → Prop} {enc : Option Bytes} {len : Option Nat} {s : σ} (hs : P s) :
    (HttpBody.new c enc len s).All P := by
  unfold HttpBody.new
  by_cases he : enc = some b!"chunked"
  · rw [if_pos he]
    exact ⟨by simp [HttpChunkedBody.new], fun s' h => by simp only [HttpChunkedBody.new, Option.some.injEq] at h; rw [← h]; exact hs,
      by simp [HttpChunkedBody.new]⟩
  · rw [if_neg he]; cases len <;> exact hs

omit [LawfulReader σ] in
theorem HttpBody.All.under {P : σ → Prop} {b : HttpBody c σ} (h : b.All P) {s : σ} (hs : b.under = some s) : P s := by
  cases b with
  | Chunked b =>
    unfold HttpBody.under at hs
    dsimp only at hs
    cases hc : b.chunk with
    | some ch =>
      rw [hc] at hs
      simp only [Option.some.injEq] at hs
      rw [← hs]; exact h.1 ch hc
    | none =>
      rw [hc] at hs
      dsimp only at hs
      cases hst : b.stream with
      | some s' =>
        rw [hst] at hs
        simp only [Option.some.injEq] at hs
        rw [← hs]; exact h.2.1 s' hst
      | none =>
        rw [hst] at hs
        exact h.2.2 s hs
  | Limited t => simp only [HttpBody.under, Option.some.injEq] at hs; rw [← hs]; exact h
  | ReadTilClose s' => simp only [HttpBody.under, Option.some.injEq] at hs; rw [← hs]; exact h

omit [LawfulReader σ] in
theorem KeptOn.calls [Reader σ] {P : σ → Prop} (h : KeptOn A P) {s : σ} {sizes : List Nat} (ha : ∀ n ∈ sizes, A n) (hs : P s) :
    P (calls s sizes).2 := by
  induction sizes generalizing s with
  | nil => exact hs
  | cons n ns ih => exact ih (fun m hm => ha m (by simp [hm])) (h.read s n (ha n (by simp)) hs)

end

/-! ### All sizes -/

section
variable {c : Cfg} {σ : Type} [LawfulReader σ] {P : σ → Prop}

theorem ReadKept.bytesNext (h : ReadKept P) {s : σ} (hs : P s) : P (bytesNext c s).2 := h.on.bytesNext hs

theorem ReadKept.readExact (h : ReadKept P) {s : σ} {n : Nat} (hs : P s) : P (readExact c s n).2 := h.on.readExact hs

theorem ReadKept.crlfNext (h : ReadKept P) {s : σ} (hs : P s) : P (crlfNext c s).2 := h.on.crlfNext hs

theorem ReadKept.expectNext (h : ReadKept P) {s : σ} (hs : P s) : P (expectNext c s).2 := h.on.expectNext hs

theorem ReadKept.headers [CaseMap] (h : ReadKept P) {s : σ} (hs : P s) : P (HttpHeaders.deserialize c s).2 := h.on.headers hs

theorem ReadKept.parseHead [CaseMap] (h : ReadKept P) {α : Type} {start : Bytes → Res α} {s : σ} (hs : P s) :
    P (parseHead c start s).2 := h.on.parseHead hs

theorem ReadKept.response [CaseMap] (h : ReadKept P) {s : σ} (hs : P s) : P (HttpResponse.deserialize c s).2 := h.on.response hs

theorem ReadKept.request [CaseMap] (h : ReadKept P) {s : σ} (hs : P s) : P (HttpRequest.deserialize c s).2 := h.on.request hs

omit [LawfulReader σ] in
theorem ReadKept.bufReader [Reader σ] {P : σ → Prop} (h : ReadKept P) : ReadKept fun r : BufReader c σ => P r.inner :=
  h.on.bufReader.kept

omit [LawfulReader σ] in
/-- With `std`, only reads with a large buffer reach the inner reader. -/
theorem ReadKept.bufReader_large [Reader σ] {P : σ → Prop} (hc : c.std = true)
    (h : ∀ s n, 8192 ≤ n → P s → P (HttpIo.read s n).2) : ReadKept fun r : BufReader c σ => P r.inner := by
  refine ⟨fun r n hr => ?_⟩
  rw [BufReader.read_def]
  unfold BufReader.readImpl
  rw [if_pos hc]
  by_cases hb : r.buf.isEmpty = true
  · rw [if_pos hb]
    by_cases hn : n ≥ bufCap
    · rw [if_pos hn]; exact h _ _ hn hr
    · rw [if_neg hn]
      have := h r.inner bufCap (by unfold bufCap; omega) hr
      rcases hrd : HttpIo.read r.inner bufCap with ⟨_ | _, i⟩ <;> rw [hrd] at this <;> exact this
  · rw [if_neg hb]; exact hr

omit [LawfulReader σ] in
theorem ReadKept.take [Reader σ] {P : σ → Prop} (h : ReadKept P) : ReadKept fun t : Take σ => P t.inner := h.on.take.kept

theorem ReadKept.chunkNew (h : ReadKept P) {s : σ} (hs : P s) : P (HttpBodyChunk.new c s).2 ∧
    ∀ ch, (HttpBodyChunk.new c s).1 = .ok (some ch) → P ch.inner := h.on.chunkNew hs

theorem ReadKept.chunked [ZeroReader σ] (h : ReadKept P) : ReadKept fun b : HttpChunkedBody c σ => b.All P := h.on.chunked.kept

theorem ReadKept.body [ZeroReader σ] (h : ReadKept P) : ReadKept fun b : HttpBody c σ => b.All P := h.on.body.kept

omit [LawfulReader σ] in
theorem ReadKept.calls [Reader σ] {P : σ → Prop} (h : ReadKept P) {s : σ} {sizes : List Nat} (hs : P s) :
    P (calls s sizes).2 := h.on.calls (fun _ _ => trivial) hs

end

end HttpIo
