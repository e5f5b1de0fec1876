import Verif.Spec.Expect
import Verif.Props.Pipes

/-!
C113: a client that asks for `100 Continue` and waits is answered. The crate knows nothing of `Expect`: whether an answer comes
before the body depends on the handler alone.
-/

namespace HttpIo
open Spec
open Reader Writer FiniteWriter LawfulReader

/-! ### The server's end while the client waits -/

/-- What holds while the server only reads from the client that waits: it has not written; and if it has asked for more than
there is, it waits. -/
structure Sock.Held (I F : Nat) (s : Sock) : Prop where
  unsent : s.out = [] ∧ s.room = []
  reading : s.Reading I F
  nowrite : ∀ buf, s.waits ≠ some (.write buf)
  open_ : s.ended = false
  asked : s.closes = true → ∃ n, s.waits = some (.read n)

theorem sock_held (I F : Nat) : ReadKept fun s : Sock => s.Held I F := by
  refine ⟨fun s n h => ?_⟩
  obtain ⟨g1, g2, g3⟩ := s.read_rest n
  refine ⟨⟨g1.trans h.unsent.1, g2.trans h.unsent.2⟩, h.reading.read n, fun buf hw => h.nowrite buf (s.read_waits_write n buf hw),
    g3.trans h.open_, fun hc => ?_⟩
  rcases hs : s.waits with _ | ⟨k⟩ | buf
  · have hcl : s.closes = false := by
      cases hx : s.closes with
      | false => rfl
      | true => obtain ⟨k, hk⟩ := h.asked hx; rw [hs] at hk; simp at hk
    rw [Sock.read_def] at hc ⊢
    unfold Sock.readImpl at hc ⊢
    by_cases hn : n = 0
    · rw [if_pos hn] at hc; rw [hcl] at hc; simp at hc
    · rw [if_neg hn] at hc ⊢
      by_cases hi : s.input = []
      · rw [if_pos hi] at hc ⊢
        dsimp only
        rw [hcl, if_neg (by simp), h.open_, if_neg (by simp)]
        exact ⟨n, by show (s.wait _).waits = _; rw [Sock.wait_waits, if_pos hs]⟩
      · rw [if_neg hi] at hc ⊢
        rw [hs] at hc ⊢
        rcases hf : s.fed with _ | ⟨_ | k, ks⟩ <;> rw [hf] at hc <;> dsimp only at hc ⊢
        · exact ⟨n, by show (s.wait _).waits = _; rw [Sock.wait_waits, if_pos hs]⟩
        · exact ⟨n, by show (s.wait _).waits = _; rw [Sock.wait_waits, if_pos hs]⟩
        · rw [hcl] at hc; simp at hc
  · exact ⟨k, s.read_waits n _ hs⟩
  · exact absurd hs (h.nowrite buf)

/-- Reads from a stream that never says anything more. -/
theorem read_silent {σ : Type} [LawfulReader σ] {s : σ} {e : Err} (h : trace s = [.fault e]) {n : Nat} (hn : 0 < n) :
    (read s n).1 = .error e ∧ trace (read s n).2 = [] := by
  have := LawfulReader.read_step s n hn
  rw [h] at this
  generalize (read s n).1 = r at this
  generalize trace (read s n).2 = t at this
  generalize hx : [Ev.fault e] = l at this
  cases this with
  | data bs t n h1 h2 => cases bs <;> simp_all
  | fault e t n => simp_all
  | eof n => simp at hx

theorem ReadStep.of_nil {n : Nat} {r : Except Err Bytes} {t : List Ev} (h : ReadStep [] n r t) : t = [] := by
  generalize hx : ([] : List Ev) = l at h
  cases h with
  | eof n => rfl
  | fault e t n => simp at hx
  | data bs t n h1 h2 => simp at hx; exact absurd hx.1 h1

theorem expect_silent {σ : Type} [LawfulReader σ] (c : Cfg) {s : σ} (h : trace s = [.fault Sock.hang]) :
    ∃ s', expectNext c s = (.error Sock.hang, s') ∧ trace s' = [] := by
  obtain ⟨h1, h2⟩ := read_silent h (n := 1) (by omega)
  rcases hr : read s 1 with ⟨r, s'⟩
  rw [hr] at h1 h2
  dsimp only at h1 h2
  subst h1
  have hret : c.retries Sock.hang = false := by rcases c with ⟨_ | _⟩ <;> rfl
  have hb : bytesNext c s = (some (.error Sock.hang), s') := by
    unfold bytesNext
    split <;> rename_i heq <;> rw [hr] at heq <;> simp only [Prod.mk.injEq, reduceCtorEq, false_and, Except.error.injEq] at heq
    obtain ⟨rfl, rfl⟩ := heq
    rw [if_neg (by rw [hret]; simp)]
  refine ⟨s', ?_, h2⟩
  unfold expectNext innerNext innerNextLoop
  split <;> rename_i heq <;> split at heq <;> rename_i heq' <;> rw [hb] at heq' <;> simp_all

/-- A read of the body of an upload, none of which has come: whatever is read later, the connection has been asked. -/
theorem calls_silent {c : Cfg} {σ : Type} [LawfulReader σ] [ZeroReader σ] (enc : Option Bytes) (len : Option Nat) (x : σ)
    (h : trace x = [.fault Sock.hang]) (hf : framing (HttpBody.new c enc len x) = .chunked ∨
      ∃ k, 0 < k ∧ framing (HttpBody.new c enc len x) = .limited k) (n : Nat) (hn : 0 < n) (sizes : List Nat) :
    ∃ x', (calls (HttpBody.new c enc len x) (n :: sizes)).2.under = some x' ∧ trace x' = [] := by
  have ended : ∀ (sizes : List Nat) (x : σ) (k : Nat), trace x = [] →
      ∃ x', (calls (HttpBody.Limited ⟨x, k⟩ : HttpBody c σ) sizes).2.under = some x' ∧ trace x' = [] := by
    intro sizes
    induction sizes with
    | nil => intro x k hx; exact ⟨x, rfl, hx⟩
    | cons m sizes ih =>
      intro x k hx
      have hread : ∀ m, trace (read x m).2 = [] := by
        intro m
        rcases Nat.eq_zero_or_pos m with rfl | hm
        · rcases ZeroReader.read_zero x with ⟨_, h1⟩ | ⟨e, tl, h1, _⟩
          · rw [h1]; exact hx
          · rw [hx] at h1; simp at h1
        · have := LawfulReader.read_step x m hm
          rw [hx] at this
          exact this.of_nil
      show ∃ x', (calls (HttpBody.readImpl (HttpBody.Limited ⟨x, k⟩) m).2 sizes).2.under = some x' ∧ _
      have : ∃ x' k', (HttpBody.readImpl (HttpBody.Limited ⟨x, k⟩ : HttpBody c σ) m).2 = .Limited ⟨x', k'⟩ ∧ trace x' = [] := by
        unfold HttpBody.readImpl
        dsimp only
        rw [Take.read_def]
        unfold Take.readImpl
        dsimp only
        by_cases hk : k = 0
        · rw [if_pos hk]; exact ⟨x, k, rfl, hx⟩
        · rw [if_neg hk]
          have h1 := hread (min m k)
          rcases hr : read x (min m k) with ⟨_ | bs, i⟩ <;> rw [hr] at h1 <;> exact ⟨i, _, rfl, h1⟩
      obtain ⟨x', k', h1, h2⟩ := this
      rw [h1]
      exact ih x' k' h2
  have stays : ∀ (sizes : List Nat) (b : HttpChunkedBody c σ), b.chunk = none → b.stream = none →
      (calls (HttpBody.Chunked b) sizes).2 = .Chunked b := by
    intro sizes b h1 h2
    induction sizes with
    | nil => rfl
    | cons m sizes ih =>
      have : (read (HttpBody.Chunked b) m).2 = .Chunked b := by
        show (HttpBody.readImpl (.Chunked b) m).2 = _
        unfold HttpBody.readImpl
        dsimp only
        have : read b m = (.ok [], b) := by
          show b.readImpl m = _
          unfold HttpChunkedBody.readImpl
          split
          · rename_i hc; rw [h1] at hc; simp at hc
          · split
            · rename_i hc; rw [h2] at hc; simp at hc
            · rfl
        rw [this]
      show (calls (read (HttpBody.Chunked b) m).2 sizes).2 = _
      rw [this]; exact ih
  unfold HttpBody.new at hf ⊢
  by_cases he : enc = some b!"chunked"
  · rw [if_pos he] at hf ⊢
    obtain ⟨s', h1, h2⟩ := expect_silent c h
    have h3 : HttpBodyChunk.new c x = (.error Sock.hang, s') := by unfold HttpBodyChunk.new; rw [h1]
    have h4 : (read (HttpBody.Chunked (HttpChunkedBody.new c len x)) n).2 = .Chunked ⟨len, none, none, some s'⟩ := by
      show (HttpBody.readImpl (.Chunked (HttpChunkedBody.new c len x)) n).2 = _
      unfold HttpBody.readImpl
      dsimp only
      have : (read (HttpChunkedBody.new c len x) n).2 = ⟨len, none, none, some s'⟩ := by
        show ((HttpChunkedBody.new c len x).readImpl n).2 = _
        unfold HttpChunkedBody.readImpl HttpChunkedBody.new
        dsimp only
        split
        · rename_i hx; rw [h3] at hx; simp only [Prod.mk.injEq] at hx; rw [hx.2]
        · rename_i hx; rw [h3] at hx; simp at hx
        · rename_i hx; rw [h3] at hx; simp at hx
      rw [← this]
    show ∃ x', (calls (read (HttpBody.Chunked (HttpChunkedBody.new c len x)) n).2 sizes).2.under = some x' ∧ _
    rw [h4, stays _ _ rfl rfl]
    exact ⟨s', rfl, h2⟩
  · rw [if_neg he] at hf ⊢
    cases len with
    | none => simp [framing] at hf
    | some k =>
      dsimp only at hf ⊢
      have hk : 0 < k := by
        rcases hf with hf | ⟨k', h1, hf⟩
        · simp [framing] at hf
        · simp only [framing, Framing.limited.injEq] at hf; omega
      obtain ⟨h1, h2⟩ := read_silent h (n := min n k) (by omega)
      have h4 : (read (HttpBody.Limited ⟨x, k⟩ : HttpBody c σ) n).2 = .Limited ⟨(read x (min n k)).2, k⟩ := by
        show (HttpBody.readImpl (.Limited ⟨x, k⟩) n).2 = _
        unfold HttpBody.readImpl
        dsimp only
        rw [Take.read_def]
        unfold Take.readImpl
        dsimp only
        rw [if_neg (by omega)]
        rcases hr : read x (min n k) with ⟨e | bs, i⟩
        · rfl
        · rw [hr] at h1; simp at h1
      show ∃ x', (calls (read (HttpBody.Limited ⟨x, k⟩ : HttpBody c σ) n).2 sizes).2.under = some x' ∧ _
      rw [h4]
      exact ended sizes _ k h2

section
variable [CaseMap] {c : Cfg} {η ρ ε : Type} [LawfulReader ρ] [ZeroReader ρ]

/-- The server has read the head and has not had to wait. -/
theorem head_read (m : HttpMethod) (target : Bytes) (headers : HttpHeaders) (ht : SendableTarget target)
    (hh : SendableHeaders headers.entries) (hl : LengthOk headers.entries) (portions : List Nat) (hp : Positive portions)
    (hsum : portions.sum = (requestHead m target headers.entries).length) :
    ∃ r s1, HttpRequest.deserialize c (BufReader.new c (holding (requestHead m target headers.entries) portions)) = (.ok r, s1) ∧
      r.method = m ∧ r.uri = target ∧ FramedBy headers.entries (framing r.body) ∧ trace s1 = [.fault Sock.hang] ∧
      s1.inner.closes = false ∧ s1.inner.waits = none ∧ s1.inner.Held portions.sum portions.sum := by
  generalize hb : requestHead m target headers.entries = bytes at hsum
  have htr : trace (holding bytes portions) = bytes.map .byte ++ [.fault Sock.hang] := by rw [Sock.trace_eq]; rfl
  obtain ⟨r, s1, f1, f2, f3, _, _, f4, f5, f6⟩ := C18_roundtrip c (BufReader.new c (holding bytes portions)) m target headers
    [.fault Sock.hang] ht hh hl (by rw [BufReader.trace_new, htr, hb]; exact delivers_map c _ _)
  have hheld : s1.inner.Held portions.sum portions.sum := by
    have := (sock_held portions.sum portions.sum).bufReader (c := c) |>.request (c := c) (s := BufReader.new c (holding bytes portions))
      ⟨⟨rfl, rfl⟩, ⟨fun _ => ⟨hp, by simp [BufReader.new, holding, Sock.start]; omega,
        .inr (by simp [BufReader.new, holding, Sock.start]; omega)⟩, by simp [BufReader.new, holding, Sock.start]⟩,
        by simp [BufReader.new, holding, Sock.start], rfl, by simp [BufReader.new, holding, Sock.start]⟩
    rw [f1] at this
    exact this
  obtain ⟨l, h1, h2, _⟩ := bufReader_left s1 [] [.fault Sock.hang] (by simp) f6
  have hl' : l = [] := by simpa using h1
  subst hl'
  have hcl : s1.inner.closes = false := by
    rw [Sock.trace_eq] at h2
    cases hc : s1.inner.closes with
    | false => rfl
    | true =>
      rw [hc, if_pos rfl] at h2
      have : Ev.fault Sock.hang ∈ s1.inner.input.map Ev.byte ++ [] := by rw [h2]; simp
      simp at this
  refine ⟨r, s1, f1, f2, f3, f4, f6, hcl, ?_, hheld⟩
  rcases hw : s1.inner.waits with _ | ⟨n⟩ | buf
  · rfl
  · obtain ⟨_, h3⟩ := hheld.reading.held n hw
    rcases h3 with h3 | ⟨_, h3⟩
    · omega
    · rw [hcl] at h3; simp at h3
  · exact absurd hw (hheld.nowrite buf)

/-- What the server does after the handler: it writes, unless it waits already. -/
theorem after_reply (h : Handler c η Sock ρ ε) (errText : Err → Bytes) (s0 : Sock) (self : η) (r : ServerResponse c ρ)
    (hi : (h.serveOneInner errText s0 self).1 = .ok r ∨ (h.serveOneInner errText s0 self).1 = .err r)
    (I F : Nat) (hheld : (h.serveOneInner errText s0 self).2.1.Held I F) :
    let s1 := (h.serveOneInner errText s0 self).2.1
    let s := serving h errText self s0
    (∀ n, s.waits = some (.read n) ↔ s1.waits = some (.read n)) ∧ (s1.waits = none → s.out ≠ [] → Answering s) := by
  intro s1 s
  obtain ⟨_, e2⟩ := serveOne_respond h errText s0 self r hi
  have hs : s = (respond c r s1).2.2 := by
    show (h.serveOne errText (.ok s0) self).2.1.getD s0 = _
    rw [e2]; rfl
  have hk := sock_kept s1 0
  have hstart : s1.Writing 0 := by
    obtain ⟨u1, u2⟩ := hheld.unsent
    refine ⟨fun _ => ⟨by rw [u1, u2]; simp, by rw [u2]; simp⟩, fun buf hx => absurd hx (hheld.nowrite buf)⟩
  have key : (fun s : Sock => s.input = s1.input ∧ s.closes = s1.closes ∧ s.fed = s1.fed ∧ s.ended = s1.ended ∧ s.Writing 0 ∧
      (∀ n, s.waits = some (.read n) ↔ s1.waits = some (.read n))) (respond c r s1).2.2 := by
    have k1 := hk.writePieces (c := c) (s := s1) (ps := r.headPieces) ⟨rfl, rfl, rfl, rfl, hstart, fun _ => Iff.rfl⟩
    unfold respond HttpResponse.serialize
    rcases hp : writePieces c s1 r.headPieces with ⟨e | _, s2⟩ <;> rw [hp] at k1
    · exact k1
    · dsimp only
      have k2 := hk.copy (c := c) (r := r.body) (n := 0) k1
      rcases hcp : copy c r.body s2 0 with ⟨e | _, b, s3⟩ <;> rw [hcp] at k2 <;> exact k2
  rw [← hs] at key
  obtain ⟨_, _, _, _, k1, k2⟩ := key
  refine ⟨k2, fun h1 h2 => ?_⟩
  rcases hw : s.waits with _ | ⟨n⟩ | buf
  · have := (k1.free hw).1
    exact absurd (List.eq_nil_of_length_eq_zero (by omega)) h2
  · have := (k2 n).1 hw
    rw [h1] at this; simp at this
  · exact ⟨buf, (k1.held buf hw).1, hw⟩

theorem announced_framing {entries : List (Bytes × Bytes)} {f : Framing} (hk : SortedNames entries) (ha : Announced entries)
    (hf : FramedBy entries f) : f = .chunked ∨ ∃ k, 0 < k ∧ f = .limited k := by
  by_cases hc : (b!"transfer-encoding", b!"chunked") ∈ entries
  · exact .inl (framedBy_unique hk hf (.chunked hc))
  · rcases ha with ha | ⟨v, n, h1, h2, h3⟩
    · exact absurd ha hc
    · exact .inr ⟨n, h3, framedBy_unique hk hf (.limited hc h1 h2)⟩

/-- If the handler reads from the body before it replies, the client that waits for an answer and the server that waits for the
body wait for each other: whatever the head says, and so also with `Expect: 100-continue`. -/
theorem C113_waits (h : Handler c η Sock ρ ε) (ho : OnlyReads h) (errText : Err → Bytes) (self : η) (m : HttpMethod)
    (hm : m = .Put ∨ m = .Post) (target : Bytes) (headers : HttpHeaders) (ht : SendableTarget target)
    (hh : SendableHeaders headers.entries) (hl : LengthOk headers.entries) (ha : Announced headers.entries)
    (hr : ReadsFirst h m target self) (portions : List Nat) (hp : Positive portions)
    (hsum : portions.sum = (requestHead m target headers.entries).length) :
    Listening (serving h errText self (holding (requestHead m target headers.entries) portions)) := by
  obtain ⟨r, s1, f1, f2, f3, f4, f5, f6, f7, f8⟩ := head_read (c := c) m target headers ht hh hl portions hp hsum
  have hfr := announced_framing hh.1 ha f4
  have hacc : Acceptable r := by
    intro _ hx
    rw [hx] at hfr
    rcases hfr with hfr | ⟨k, _, hfr⟩ <;> simp at hfr
  generalize hs0 : holding (requestHead m target headers.entries) portions = s0 at f1
  have hin := serveOneInner_handled h errText self f1 hacc
  have hkept := inner_kept (sock_held portions.sum portions.sum) h ho errText (s := s0) self (by
    rw [← hs0]
    exact ⟨⟨rfl, rfl⟩, ⟨fun _ => ⟨hp, by simp [holding, Sock.start]; omega,
        .inr (by simp [holding, Sock.start]; omega)⟩, by simp [holding, Sock.start]⟩,
        by simp [holding, Sock.start], rfl, by simp [holding, Sock.start]⟩)
  have hwait : ∃ n, 0 < n ∧ (h.serveOneInner errText s0 self).2.1.waits = some (.read n) := by
    obtain ⟨n, sizes, hn, hbody⟩ := hr r.body
    obtain ⟨_, enc, len, hnew⟩ := request_under f1
    obtain ⟨x', k1, k2⟩ := calls_silent (c := c) enc len s1 f5 (by rw [← hnew]; exact hfr) n hn sizes
    have hrel : (h.serveOneInner errText s0 self).2.1 = x'.inner := by
      rw [hin, f2, f3]
      dsimp only
      unfold HttpBody.released
      rw [hbody, hnew, k1]; rfl
    have hcl : x'.inner.closes = true := by
      obtain ⟨l, g1, g2, _⟩ := bufReader_left x' [] [] (by simp) k2
      have : l = [] := by simpa using g1
      rw [this, Sock.trace_eq] at g2
      cases hc : x'.inner.closes with
      | true => rfl
      | false => rw [hc] at g2; simp at g2
    rw [hrel] at hkept ⊢
    obtain ⟨k, hk⟩ := hkept.asked hcl
    exact ⟨k, (hkept.reading.held k hk).1, hk⟩
  obtain ⟨n, hn, hw⟩ := hwait
  refine ⟨n, hn, ?_⟩
  rcases hrep : (h.serveOneInner errText s0 self).1 with x | x | _
  · exact ((after_reply h errText s0 self x (.inl hrep) _ _ hkept).1 n).2 hw
  · exact ((after_reply h errText s0 self x (.inr hrep) _ _ hkept).1 n).2 hw
  · have : serving h errText self s0 = (h.serveOneInner errText s0 self).2.1 := by
      unfold serving Handler.serveOne
      dsimp only
      rcases hx : h.serveOneInner errText s0 self with ⟨_ | _ | _, s2, self2⟩ <;> rw [hx] at hrep <;> simp at hrep
      rfl
    rw [this]; exact hw

/-- If it replies without a look at the body, the answer comes at once, and it is the handler's. (So it is for all methods but
PUT and POST, whose handlers are not given the body.) -/
theorem C113_answers_partial (h : Handler c η Sock ρ ε) (ho : OnlyReads h) (errText : Err → Bytes) (self : η) (m : HttpMethod)
    (target : Bytes) (headers : HttpHeaders) (ht : SendableTarget target)
    (hh : SendableHeaders headers.entries) (hl : LengthOk headers.entries)
    (ha : m = .Put ∨ m = .Post → (b!"transfer-encoding", b!"chunked") ∈ headers.entries ∨ ∃ v, (b!"content-length", v) ∈ headers.entries)
    (hr : Ignores h m target self) (r : ServerResponse c ρ) (hans : ∀ body, AnswerIs h (handled h m target body self).1 r)
    (bs : Bytes) (hsend : Answers r bs) (portions : List Nat) (hp : Positive portions)
    (hsum : portions.sum = (requestHead m target headers.entries).length) :
    let s := serving h errText self (holding (requestHead m target headers.entries) portions)
    Answering s ∧ s.out = responseHead r.status.display r.headers.entries ++ bs := by
  intro s
  obtain ⟨rq, s1, f1, f2, f3, f4, f5, f6, f7, f8⟩ := head_read (c := c) m target headers ht hh hl portions hp hsum
  have hacc : Acceptable rq := by
    intro hm hx
    rw [f2] at hm
    rw [hx] at f4
    cases f4 with
    | tilClose h1 h2 =>
      rcases ha hm with h3 | ⟨v, h3⟩
      · exact h1 h3
      · exact h2 v h3
  generalize hs0 : holding (requestHead m target headers.entries) portions = s0 at f1
  have hin := serveOneInner_handled h errText self f1 hacc
  rw [f2, f3] at hin
  have hi : (h.serveOneInner errText s0 self).1 = .ok r ∨ (h.serveOneInner errText s0 self).1 = .err r := by
    rw [hin]
    rcases hans rq.body with hx | ⟨e, hx, rfl⟩ <;> rw [hx]
    · exact .inl rfl
    · exact .inr rfl
  have hrel : (h.serveOneInner errText s0 self).2.1 = s1.inner := by
    rw [hin]
    dsimp only
    rw [hr]
    unfold HttpBody.released
    rw [(request_under f1).1]; rfl
  obtain ⟨t, hd, he⟩ := hsend.body
  have hra : ReadsApart Sock := fun s n => (s.read_rest n).1
  obtain ⟨_, s', g2, _, g3⟩ := serve_succeeds hra (sock_reliable c) (fun _ _ _ => trivial) h ho errText s0 self trivial r hi
    hsend.version bs t hd he
  have hs : s = s' := by
    show serving h errText self (holding _ _) = s'
    unfold serving
    rw [hs0, g2]; rfl
  have hout : s.out = responseHead r.status.display r.headers.entries ++ bs := by
    rw [hs]
    rw [Sock.sent_eq, Sock.sent_eq] at g3
    rw [g3, ← hs0]; simp [holding, Sock.start]
  refine ⟨?_, hout⟩
  have := (after_reply h errText s0 self r hi _ _ (by rw [hrel]; exact f8)).2 (by rw [hrel]; exact f7)
  rw [← hs0] at this
  exact this (by rw [hout]; simp [responseHead])

/-- An upload without a length is refused at once. -/
theorem C113_refused (h : Handler c η Sock ρ ε) (ho : OnlyReads h) (errText : Err → Bytes) (self : η) (m : HttpMethod)
    (hm : m = .Put ∨ m = .Post) (target : Bytes) (headers : HttpHeaders) (ht : SendableTarget target)
    (hh : SendableHeaders headers.entries) (hc : (b!"transfer-encoding", b!"chunked") ∉ headers.entries)
    (hn : ∀ v, (b!"content-length", v) ∉ headers.entries) (portions : List Nat) (hp : Positive portions)
    (hsum : portions.sum = (requestHead m target headers.entries).length) :
    let s := serving h errText self (holding (requestHead m target headers.entries) portions)
    Answering s ∧ s.out = responseHead (utf8 "411 Length Required") [] ++ utf8 "length required" := by
  intro s
  obtain ⟨rq, s1, f1, f2, f3, f4, f5, f6, f7, f8⟩ := head_read (c := c) m target headers ht hh (fun v hv => absurd hv (hn v)) portions hp hsum
  have hna : ¬ Acceptable rq := fun hx => hx (by rw [f2]; exact hm) (framedBy_unique hh.1 f4 (.tilClose hc hn))
  generalize hs0 : holding (requestHead m target headers.entries) portions = s0 at f1
  have hin := serveOneInner_refused h errText self f1 hna
  obtain ⟨h1, h2, h3, t', h4, h5⟩ := fromString_body (c := c) (ρ := ρ) .LengthRequired b!"length required"
  have hi : (h.serveOneInner errText s0 self).1 = .ok (ServerResponse.fromString c .LengthRequired b!"length required") ∨
      (h.serveOneInner errText s0 self).1 = .err (ServerResponse.fromString c .LengthRequired b!"length required") := by
    rw [hin]; exact .inr rfl
  have hra : ReadsApart Sock := fun s n => (s.read_rest n).1
  obtain ⟨_, s', g2, _, g3⟩ := serve_succeeds hra (sock_reliable c) (fun _ _ _ => trivial) h ho errText s0 self trivial _ hi
    h1 _ t' h4 h5
  have hs : s = s' := by
    show serving h errText self (holding _ _) = s'
    unfold serving
    rw [hs0, g2]; rfl
  have hout : s.out = responseHead (utf8 "411 Length Required") [] ++ utf8 "length required" := by
    rw [hs]
    rw [Sock.sent_eq, Sock.sent_eq, h2, h3] at g3
    rw [g3, ← hs0, show HttpStatus.LengthRequired.display = utf8 "411 Length Required" by decide +kernel,
      show utf8 "length required" = b!"length required" by decide +kernel]
    simp [holding, Sock.start]
  refine ⟨?_, hout⟩
  have := (after_reply h errText s0 self _ hi _ _ (by rw [hin]; exact f8)).2 (by rw [hin]; exact f7)
  rw [← hs0] at this
  exact this (by rw [hout]; simp [responseHead])

end

/-- The head of an upload by a client that waits to be told to go on. -/
def expecting : Bytes := b!"PUT /b HTTP/1.1\r\ncontent-length: 5\r\nexpect: 100-continue\r\n\r\n"

/-- The file server of the documentation does not answer it: it waits for the body. -/
theorem C113_continue_false (c : Cfg) : let _ := asciiCase
    let s := serving (fileHandler c Sock b!"/srv" fun _ => []) (fun _ => []) sampleFs (holding expecting [expecting.length])
    Listening s ∧ ¬ Answering s := by
  intro _ s
  have h : (match s.waits with | some (.read n) => decide (0 < n) | _ => false) = true := by
    rcases c with ⟨_ | _⟩ <;> decide +kernel
  rcases hw : s.waits with _ | ⟨n⟩ | buf <;> rw [hw] at h
  · simp at h
  · refine ⟨⟨n, by simpa using h, hw⟩, ?_⟩
    rintro ⟨buf, _, h2⟩
    rw [hw] at h2; simp at h2
  · simp at h

/-- The headers of that request. -/
theorem expecting_headers : let _ := asciiCase
    let hs : HttpHeaders := ⟨[(b!"content-length", b!"5"), (b!"expect", b!"100-continue")]⟩
    SendableHeaders hs.entries ∧ LengthOk hs.entries ∧ Announced hs.entries ∧ requestHead .Put b!"/b" hs.entries = expecting := by
  intro _ hs
  have h5 : LengthText b!"5" 5 := lengthText_iff.1 (by decide +kernel)
  refine ⟨⟨by unfold SortedNames; decide, by decide, ?_⟩, ?_, .inr ⟨b!"5", 5, by simp [hs], h5, by omega⟩, by decide +kernel⟩
  · intro kv hkv
    simp only [hs, List.mem_cons, List.not_mem_nil, or_false] at hkv
    rcases hkv with rfl | rfl <;>
      exact ⟨isText_ascii (by decide), by decide, by unfold HasCrLf; decide, by rw [← startsBlank_iff]; decide,
        isText_ascii (by decide), by unfold HasCrLf; decide⟩
  · intro v hv
    simp only [hs, List.mem_cons, List.not_mem_nil, or_false, Prod.mk.injEq] at hv
    rcases hv with ⟨_, rfl⟩ | ⟨h, _⟩
    · exact ⟨5, h5⟩
    · simp at h

/-- A handler that reads a byte of the body before it answers, and one that does not. -/
example (c : Cfg) (portions : List Nat) (hp : Positive portions) (hsum : portions.sum = expecting.length) : let _ := asciiCase
    let h : Handler c Unit Sock Wire Err := { deafHandler c with put := fun uri body self => ((deafHandler c).put uri body self |>.1, (calls body [1]).2, self) }
    Listening (serving h (fun _ => []) () (holding expecting portions)) ∧
    Answering (serving (deafHandler c) (fun _ => []) () (holding expecting portions)) := by
  intro _ h
  obtain ⟨h1, h2, h3, h4⟩ := expecting_headers
  have ht : SendableTarget b!"/b" := ⟨by simp, isText_ascii (by decide), by decide, by decide, by unfold HasCrLf; decide⟩
  have hsum' := hsum
  rw [← h4] at hsum'
  have a := C113_waits h ⟨fun _ _ _ => ⟨[1], rfl⟩, fun _ _ _ => ⟨[], rfl⟩⟩ (fun _ => []) () .Put (.inl rfl) b!"/b" _ ht h1 h2 h3
    (fun body => ⟨1, [], by omega, rfl⟩) portions hp hsum'
  have b := (C113_answers_partial (deafHandler c) (deafHandler_onlyReads c) (fun _ => []) () .Put b!"/b" _ ht h1 h2
    (fun _ => .inr ⟨b!"5", by simp⟩) (fun _ => rfl) _ (fun _ => .inl rfl) b!"a page that is longer than the buffer"
    (ok_answers c _ _ rfl) portions hp hsum').1
  rw [h4] at a b
  exact ⟨a, b⟩

end HttpIo
