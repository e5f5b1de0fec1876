import Verif.Lemmas.Pipes

/-! What a handler that does not read an upload to its end leaves of it, and two programs that wait for each other. -/

namespace HttpIo
open Spec
open Reader Writer FiniteWriter LawfulReader

/-! ### How long an upload is -/

theorem showHex_length (n : Nat) : (showHex n).length = hexDigits n := by
  unfold showHex
  induction n using Nat.strongRecOn with
  | ind n ih =>
    unfold toRadix hexDigits
    by_cases h : n < 16
    · rw [if_pos h, if_pos (by omega)]; rfl
    · rw [if_neg h, if_neg (by omega), List.length_append, ih (n / (14 + 2)) (by omega)]
      rfl

theorem emitted_length (buf : Bytes) (h : buf ≠ []) : (emitted buf).length = hexDigits buf.length + 2 + buf.length + 2 := by
  unfold emitted
  rw [if_neg h]
  simp [showHex_length]
  omega

theorem upload_length (bufs : List Bytes) : ((bufs.map emitted).flatten ++ b!"0\r\n\r\n").length = uploadSize bufs := by
  unfold uploadSize
  rw [List.length_append]
  congr 1
  induction bufs with
  | nil => rfl
  | cons b bufs ih =>
    by_cases h : b = []
    · subst h
      rw [List.filter_cons_of_neg (by simp)]
      rw [← ih]
      simp [emitted]
    · rw [List.filter_cons_of_pos (by simpa using h), List.map_cons, List.map_cons, List.flatten_cons, List.length_append, ih,
        emitted_length b h]
      simp [List.sum_cons]

/-! ### Where a chunked body stands that is read in part -/

theorem Enc.suffix {c : Cfg} {k : Option Nat} {t rest : List Ev} {d : Bytes} (h : Enc c k t d rest) : rest <:+ t := by
  induction h with
  | last h _ => obtain ⟨pre, h, _⟩ := h.suffix; exact ⟨pre, h.symm⟩
  | size h _ _ _ ih => obtain ⟨pre, h, _⟩ := h.suffix; exact ih.trans ⟨pre, h.symm⟩
  | tail h _ _ ih => obtain ⟨pre, h, _⟩ := h.suffix; exact ih.trans ⟨pre, h.symm⟩
  | byte _ ih => exact ih.trans (List.suffix_cons _ _)

section
variable {c : Cfg} {ρ : Type} [LawfulReader ρ] [ZeroReader ρ]

omit [ZeroReader ρ] in
theorem EncState.under {b : HttpChunkedBody c ρ} {d : Bytes} {rest : List Ev} (h : EncState b d rest) :
    ∃ s, (HttpBody.Chunked b).under = some s ∧ rest <:+ trace s := by
  unfold HttpBody.under
  dsimp only
  rcases h with ⟨ch, h1, h2⟩ | ⟨h1, s, h2, h3⟩ | ⟨h1, h2, _, s, h3, h4⟩
  · rw [h1]; exact ⟨_, rfl, h2.suffix⟩
  · rw [h1, h2]; exact ⟨_, rfl, h3.suffix⟩
  · rw [h1, h2]; exact ⟨s, h3, by rw [h4]; exact List.suffix_refl _⟩

theorem HttpChunkedBody.calls_state {b : HttpChunkedBody c ρ} {d : Bytes} {rest : List Ev} {sizes : List Nat}
    (hp : Positive sizes) (h : EncState b d rest) : ∃ d', EncState (calls b sizes).2 d' rest := by
  induction sizes generalizing b d with
  | nil => exact ⟨d, h⟩
  | cons n ns ih =>
    rw [calls]
    dsimp only
    rw [HttpChunkedBody.read_def]
    rcases HttpChunkedBody.read_enc b n (hp n (by simp)) h with ⟨x, y, _, _, _, h4⟩ | ⟨_, _, h3⟩
    · exact ih hp.tail h4
    · exact ih hp.tail h3.state

/-- Reads of a chunked body take nothing of what follows it, and what they take is gone. -/
theorem decode_part (c : Cfg) (n : Option Nat) (u : ρ) (chs : List Chunk) (last : Bytes) (rest : List Ev)
    (hs : ∀ ch ∈ chs, ch.Sized) (hl : UnsignedText 16 last 0) (hd : DeliversChunked c (trace u) chs last rest)
    (sizes : List Nat) (hp : Positive sizes) :
    ∃ s, (calls (HttpBody.new c (some b!"chunked") n u) sizes).2.under = some s ∧ rest <:+ trace s ∧ trace s <:+ trace u := by
  have henc := enc_of_delivers hd hl hs
  have hk : ReadKept fun s : ρ => trace s <:+ trace u := ⟨fun s m h => (read_suffix s m).trans h⟩
  have hall := (ReadKept.body (c := c) hk).calls (sizes := sizes)
    (HttpBody.All.new (enc := some b!"chunked") (len := n) (P := fun s : ρ => trace s <:+ trace u) (List.suffix_refl _))
  rw [chunked_new, HttpBody.calls_chunked] at hall ⊢
  obtain ⟨d', h⟩ := HttpChunkedBody.calls_state (b := HttpChunkedBody.new c n u) hp (.inr (.inl ⟨rfl, u, rfl, henc⟩))
  obtain ⟨s, h1, h2⟩ := h.under
  exact ⟨s, h1, h2, hall.under h1⟩

end

/-! ### A server that is given one byte at a time -/

theorem read_less {σ : Type} [LawfulReader σ] (s : σ) (n : Nat) (hn : 0 < n) (h : trace s ≠ []) :
    (trace (read s n).2).length < (trace s).length := by
  have := LawfulReader.read_step s n hn
  generalize (read s n).1 = r at this
  generalize trace (read s n).2 = t at this
  generalize trace s = u at this h
  cases this with
  | eof => exact absurd rfl h
  | data bs t _ h1 h2 =>
    have := List.length_pos_iff.2 h1
    simp only [List.length_append, List.length_map]
    omega
  | fault => simp

/-- A socket that has been given some of its bytes, one at a time, and has `L` bytes more to come. -/
structure Sock.Sips (L : Nat) (s : Sock) : Prop where
  ones : ∀ x ∈ s.fed, x = 1
  left : s.input.length = s.fed.length + L

theorem Sock.Sips.read {L : Nat} {s : Sock} (hs : s.Sips L) (hL : 1 ≤ L) (hw : s.waits = none) (n : Nat) (hn : 0 < n) :
    (s.fed = [] ∧ (HttpIo.read s n).2.waits ≠ none) ∨ ((HttpIo.read s n).2.waits = none ∧ (HttpIo.read s n).2.Sips L) := by
  have hl := hs.left
  have hi : s.input ≠ [] := by intro h; rw [h] at hl; simp at hl; omega
  rw [Sock.read_def]
  unfold Sock.readImpl
  rw [if_neg (by omega), if_neg hi, hw]
  rcases hf : s.fed with _ | ⟨k, ks⟩
  · left
    refine ⟨rfl, ?_⟩
    dsimp only
    rw [Sock.wait_waits, if_pos hw]; simp
  · right
    have hk := hs.ones k (by rw [hf]; simp)
    subst hk
    have hsp : spend n (1 :: ks) = ks := if_pos (by omega)
    dsimp only
    refine ⟨rfl, ⟨fun x hx => ?_, ?_⟩⟩
    · dsimp only at hx
      rw [hsp] at hx
      exact hs.ones x (by rw [hf]; simp [hx])
    · dsimp only
      rw [hsp, List.length_drop, hl, hf, List.length_cons]
      omega

/-- ... below a buffer: it waits only if fewer than `L` bytes are left. -/
structure Sipping {c : Cfg} (L : Nat) (b : BufReader c Sock) : Prop where
  free : b.inner.waits = none → b.inner.Sips L
  held : b.inner.waits ≠ none → (trace b).length ≤ L

theorem sipping_kept {c : Cfg} {L : Nat} (hL : 1 ≤ L) : KeptOn (0 < ·) fun b : BufReader c Sock => Sipping L b := by
  refine ⟨fun _ h => h, fun b n hn hb => ?_⟩
  have hsuf := (read_suffix b n).length_le
  by_cases hw : b.inner.waits = none
  · have hs := hb.free hw
    -- a read of the socket
    have key : ∀ m : Nat, 0 < m → (read b n).2.inner = (read b.inner m).2 → (c.std = true → b.buf = []) → Sipping L (read b n).2 := by
      intro m hm hin hbuf
      have htr : trace b = trace b.inner := by
        rw [BufReader.trace_eq]
        by_cases hc : c.std = true
        · rw [if_pos hc, hbuf hc]; rfl
        · rw [if_neg hc]
      rcases hs.read hL hw m hm with ⟨h1, h2⟩ | ⟨h1, h2⟩
      · refine ⟨fun h => absurd (by rw [← hin]; exact h) h2, fun _ => ?_⟩
        have hl := hs.left
        rw [h1] at hl
        have h3 : (trace b).length ≤ L + 1 := by
          rw [htr, Sock.trace_eq, List.length_append, List.length_map, hl]
          split <;> simp
        have := read_less b n hn (by
          intro h
          have := congrArg List.length h
          rw [htr, Sock.trace_eq, List.length_append, List.length_map, hl] at this
          simp at this; omega)
        omega
      · exact ⟨fun _ => by rw [hin]; exact h2, fun h => absurd (by rw [hin]; exact h1) h⟩
    rw [BufReader.read_def] at key ⊢
    unfold BufReader.readImpl at key ⊢
    by_cases hc : c.std = true
    · rw [if_pos hc] at key ⊢
      by_cases he : b.buf.isEmpty = true
      · have he' : b.buf = [] := List.isEmpty_iff.1 he
        rw [if_pos he] at key ⊢
        by_cases hcap : n ≥ bufCap
        · rw [if_pos hcap] at key ⊢
          exact key n hn rfl fun _ => he'
        · rw [if_neg hcap] at key ⊢
          refine key bufCap (by unfold bufCap; omega) ?_ fun _ => he'
          rcases read b.inner bufCap with ⟨_ | _, i⟩ <;> rfl
      · rw [if_neg he]
        exact ⟨fun _ => hs, fun h => absurd hw h⟩
    · rw [if_neg hc] at key ⊢
      exact key n hn rfl fun h => absurd h hc
  · have hk : ReadKept fun s : Sock => s.waits ≠ none := by
      refine ⟨fun s m h => ?_⟩
      rcases hx : s.waits with _ | a
      · exact absurd hx h
      · rw [s.read_waits m a hx]; simp
    have h1 := (ReadKept.bufReader (c := c) hk).read b n hw
    exact ⟨fun h => absurd h h1, fun _ => Nat.le_trans hsuf (hb.held hw)⟩

/-! ### What a handler leaves -/

/-- How the handler reads the upload determines what is left of it: at most the body, all of the body if it does not look, and
the last end of line if it reads to the end. -/
def Leaves {c : Cfg} {η ρ ε : Type} [LawfulReader ρ] [ZeroReader ρ] (h : Handler c η Sock ρ ε) (q : Ask) (self : η)
    (reply : Reply ε (ServerResponse c ρ)) (left : Nat) : Prop :=
  (q.put = false → left = 0) ∧ (q.put = true → left ≤ uploadSize (written q.writes) ∧
    (RepliesUnread h q self reply → left = uploadSize (written q.writes)) ∧ (Replies h q self reply → left = 2))

section
variable [CaseMap] {c : Cfg} {η ρ ε : Type} [LawfulReader ρ] [ZeroReader ρ]

theorem server_left (q : Ask) (hq : q.Readable) (host : Bytes) (hhost : q.url.host = some host)
    (h : Handler c η Sock ρ ε) (self : η) (reply : Reply ε (ServerResponse c ρ)) (hw : RepliesAnyhow h q self reply)
    (errText : Err → Bytes) (s : Sock) (hi : s.input = asked q host) (hc : s.closes = false) :
    (∀ r, AnswerIs h reply r →
      (h.serveOneInner errText s self).1 = .ok r ∨ (h.serveOneInner errText s self).1 = .err r) ∧
    ∃ (b : BufReader c Sock) (bs : Bytes), (h.serveOneInner errText s self).2.1 = b.inner ∧
      trace b = bs.map .byte ++ [.fault Sock.hang] ∧ Leaves h q self reply bs.length ∧
      ∀ P : BufReader c Sock → Prop, KeptOn (0 < ·) P → P (BufReader.new c s) → P b := by
  have htr : trace s = (asked q host).map .byte ++ [.fault Sock.hang] := by rw [Sock.trace_eq, hi, hc]; rfl
  cases hput : q.put with
  | false =>
    obtain ⟨hd, k1, k2, k3, _⟩ := standard_ok .Get host (hq.host_text host hhost)
    have hdel : Delivers c (trace s) (requestHead .Get (requestTarget { q.url with query := none }) hd.entries)
        [.fault Sock.hang] := by
      rw [htr, k1]
      simp only [asked, hput]
      exact delivers_map c _ _
    obtain ⟨rq, s1, f1, f2, f3, _, _, f4, f5, f6⟩ := C18_roundtrip c (BufReader.new c s) .Get _ hd _ hq.target k2 k3
      (by rwa [BufReader.trace_new])
    have hacc : Acceptable rq := by intro hm; rw [f2] at hm; simp at hm
    rw [serveOneInner_handled h errText self f1 hacc, f2, f3]
    dsimp only [handled]
    have hrel : rq.body.released s1 = s1.inner := by unfold HttpBody.released; rw [f5]; rfl
    refine ⟨fun r hr => ?_, s1, [], hrel, f6, ⟨fun _ => rfl, fun hx => by rw [hput] at hx; simp at hx⟩, fun P hP hs => ?_⟩
    · unfold RepliesAnyhow at hw
      rw [hput, if_neg (by simp)] at hw
      rw [← hw] at hr
      rcases hr with hr | ⟨e, hr, rfl⟩ <;> rw [hr]
      · exact .inl rfl
      · exact .inr rfl
    · have := hP.request (c := c) hs
      rwa [f1] at this
  | true =>
    obtain ⟨hd, k1, k2, k3, k4⟩ := standard_ok .Put host (hq.host_text host hhost)
    obtain ⟨chs, q1, q2⟩ := chunksFor (written q.writes) hq.small
    have hask : asked q host = requestHead .Put (requestTarget { q.url with query := none }) hd.entries ++
        (chunkedBytes chs b!"0" ++ [13, 10]) := by
      rw [k1]
      simp only [asked, hput, if_pos, q2, chunkedBytes]
      simp
    have hlen : (chunkedBytes chs b!"0" ++ [13, 10]).length = uploadSize (written q.writes) := by
      rw [← upload_length, q2, chunkedBytes]
      simp
    have hdel : Delivers c (trace s) (requestHead .Put (requestTarget { q.url with query := none }) hd.entries)
        ((chunkedBytes chs b!"0").map .byte ++ ([13, 10].map .byte ++ [.fault Sock.hang])) := by
      rw [htr, hask, List.map_append, List.map_append, List.append_assoc, List.append_assoc]
      exact delivers_map c _ _
    obtain ⟨rq, s1, f1, f2, f3, _, _, f4, f5, f6⟩ := C18_roundtrip c (BufReader.new c s) .Put _ hd _ hq.target k2 k3
      (by rwa [BufReader.trace_new])
    have hfr := framedBy_unique k2.1 f4 (.chunked (k4 (by unfold Carries; simp)))
    have hacc : Acceptable rq := by intro _ hf; rw [hf] at hfr; simp at hfr
    obtain ⟨_, enc, len, hnew⟩ := request_under f1
    have hbody : rq.body = HttpBody.new c (some b!"chunked") len s1 := by
      rw [hnew] at hfr ⊢
      unfold HttpBody.new at hfr ⊢
      by_cases henc : enc = some b!"chunked"
      · rw [henc]
      · rw [if_neg henc] at hfr
        cases len <;> simp [framing] at hfr
    have hdc := deliversChunked_map c chs b!"0" ([13, 10].map .byte ++ [.fault Sock.hang])
    rw [← f6] at hdc
    have hsized : ∀ ch ∈ chs, ch.Sized := fun ch h => (q1.1 ch h).1
    have hlast : UnsignedText 16 b!"0" 0 := .inl (.one (.dec 0 (by omega) (by omega)))
    obtain ⟨d1, d2⟩ := decode_sized c len s1 chs b!"0" _ hsized hlast hdc
    have d3 := decode_part c len s1 chs b!"0" _ hsized hlast hdc
    rw [← hbody, chunkedData_for q1] at d1
    rw [← hbody] at d2 d3
    unfold RepliesAnyhow at hw
    rw [hput, if_pos rfl] at hw
    obtain ⟨w1, sizes, w2, w4⟩ := hw rq.body d1
    obtain ⟨s3, u1, u2, u3⟩ := d3 sizes w2
    rw [serveOneInner_handled h errText self f1 hacc, f2, f3]
    dsimp only [handled]
    have hrel : (h.put (requestTarget { q.url with query := none }) rq.body self).2.1.released s1 = s3.inner := by
      rw [w4]; unfold HttpBody.released; rw [u1]; rfl
    -- what is left
    have f6' : trace s1 = (chunkedBytes chs b!"0" ++ [13, 10]).map .byte ++ [.fault Sock.hang] := by rw [f6]; simp
    obtain ⟨bs, v1, v2⟩ : ∃ bs : Bytes, trace s3 = bs.map .byte ++ [.fault Sock.hang] ∧
        bs.length ≤ (chunkedBytes chs b!"0" ++ [13, 10]).length := by
      obtain ⟨pre, hpre⟩ := u3
      obtain ⟨mid, hmid⟩ := u2
      rw [← hmid, ← List.append_assoc, ← List.append_assoc, f6', List.append_left_inj] at hpre
      obtain ⟨x, y, e1, e2, e3⟩ := List.map_eq_append_iff.1 hpre.symm
      obtain ⟨x1, x2, g1, g2, g3⟩ := List.map_eq_append_iff.1 e2
      refine ⟨x2 ++ [13, 10], ?_, ?_⟩
      · rw [← hmid, ← g3]; simp
      · have := congrArg List.length e1
        have hy := congrArg List.length e3
        rw [g1] at this
        simp only [List.length_append, List.length_map] at this hy ⊢
        omega
    refine ⟨fun r hr => ?_, s3, bs, hrel, v1, ⟨fun hx => by rw [hput] at hx; simp at hx, fun _ => ⟨by rw [← hlen]; exact v2, ?_, ?_⟩⟩,
      fun P hP hs => ?_⟩
    · rw [w1]
      rcases hr with hr | ⟨e, hr, rfl⟩ <;> rw [hr]
      · exact .inl rfl
      · exact .inr rfl
    · intro hun
      have hun := (hun rq.body d1).2
      rw [← w4, hun, f5, Option.some.injEq] at u1
      rw [← u1, f6'] at v1
      have := congrArg List.length v1
      rw [← hlen]
      simp only [List.length_append, List.length_map] at this ⊢
      omega
    · intro hre
      unfold Replies at hre
      rw [hput, if_pos rfl] at hre
      obtain ⟨_, sizes', z1, z2, z3⟩ := hre rq.body d1
      obtain ⟨s4, z4, z5⟩ := d2 sizes' z1 z2
      rw [← w4, z3, z4, Option.some.injEq] at u1
      rw [← u1, z5] at v1
      have := congrArg List.length v1
      simp only [List.length_append, List.length_map, List.length_cons, List.length_nil] at this
      omega
    · have h1 := hP.request (c := c) hs
      rw [f1] at h1
      have h2 := (KeptOn.body (c := c) hP).calls (sizes := sizes) w2 (s := rq.body) (by rw [hbody]; exact HttpBody.All.new h1)
      exact h2.under u1

/-- What the server writes and waits for if the handler leaves at most `L` bytes. -/
theorem server_shape_left (q : Ask) (hq : q.Readable) (host : Bytes) (hhost : q.url.host = some host)
    (h : Handler c η Sock ρ ε) (self : η) (reply : Reply ε (ServerResponse c ρ)) (hw : RepliesAnyhow h q self reply)
    (ho : OnlyReads h) (errText : Err → Bytes) (r : ServerResponse c ρ) (hr : AnswerIs h reply r) (bs : Bytes) (ha : Answers r bs)
    (L : Nat) (hL : ∀ n, Leaves h q self reply n → n ≤ L) :
    ServerShape (serving h errText self) (asked q host) (responseHead r.status.display r.headers.entries ++ bs) L := by
  intro fed room hf hm
  obtain ⟨h1, h2, h3, h4⟩ := server_shape_of q host h self ho errText r bs ha L (fun s hi hc => by
    obtain ⟨g1, b, x, g2, g3, g4, _⟩ := server_left q hq host hhost h self reply hw errText s hi hc
    obtain ⟨l1, l2⟩ := bufSock_left b x g3
    rw [g2]
    exact ⟨g1 r hr, l1, Nat.le_trans l2 (hL _ g4)⟩) fed room hf hm
  exact ⟨h1, fun n hn => ⟨(h2 n hn).1, (h2 n hn).2.1⟩, h3, h4⟩

/-- A server that has been given the request one byte at a time, but for the bytes that the handler leaves, does not wait for
more of it. -/
theorem server_sips (q : Ask) (hq : q.Readable) (host : Bytes) (hhost : q.url.host = some host)
    (h : Handler c η Sock ρ ε) (self : η) (reply : Reply ε (ServerResponse c ρ)) (hw : RepliesAnyhow h q self reply)
    (ho : OnlyReads h) (errText : Err → Bytes) (r : ServerResponse c ρ) (hr : AnswerIs h reply r) (bs : Bytes) (ha : Answers r bs)
    (L : Nat) (hL : ∀ n, Leaves h q self reply n → n = L) (h1 : 1 ≤ L) (h2 : L ≤ (asked q host).length)
    (room : List Nat) (hroom : ∀ x ∈ room, 0 < x) (n : Nat) :
    (serving h errText self (Sock.start (asked q host) false (List.replicate ((asked q host).length - L) 1) false room)).waits ≠
      some (.read n) := by
  intro hx
  obtain ⟨_, g2, _, _⟩ := server_shape_of q host h self ho errText r bs ha L (fun s hi hc => by
    obtain ⟨g1, b, x, g2, g3, g4, _⟩ := server_left q hq host hhost h self reply hw errText s hi hc
    obtain ⟨l1, l2⟩ := bufSock_left b x g3
    rw [g2]
    exact ⟨g1 r hr, l1, Nat.le_trans l2 (by rw [hL _ g4]; exact Nat.le_refl _)⟩)
    (List.replicate ((asked q host).length - L) 1) room (fun x hx => by rw [(List.mem_replicate.1 hx).2]; omega) hroom
  have hwait := (g2 n hx).2.2
  obtain ⟨_, b, x, f1, f2, f3, f4⟩ := server_left q hq host hhost h self reply hw errText
    (Sock.start (asked q host) false (List.replicate ((asked q host).length - L) 1) false room) rfl rfl
  have := f4 _ (sipping_kept h1) ⟨fun _ => ⟨fun x hx => (List.mem_replicate.1 hx).2, by
    show (asked q host).length = (List.replicate _ 1).length + L
    rw [List.length_replicate]; omega⟩, fun hx => absurd rfl hx⟩
  have hl := this.held (by rw [← f1, hwait]; simp)
  rw [f2, List.length_append, List.length_map, hL _ f3, List.length_singleton] at hl
  omega

end

/-! ### Waiting for each other -/

section
variable {client server : Sock → Sock} {req resp : Bytes}

/-- Both want to write, and both pipes are full. -/
theorem stuck_of_full {ku kd : Nat} {x : Link} {a b : Bytes} (hc : (x.clientEnd client resp).waits = some (.write a))
    (hs : (x.serverEnd server req).waits = some (.write b)) (hu : x.up = ku) (hd : x.down = kd) :
    Stuck client server req resp ku kd x := by
  refine ⟨fun h => by rw [h.1] at hc; simp at hc, fun y h => ?_⟩
  cases h with
  | clientWrite k h1 h2 h3 h4 => omega
  | clientRead k h1 => rw [hc] at h1; simp at h1
  | clientClosed h1 => rw [hc] at h1; simp at h1
  | serverRead k h1 => rw [hs] at h1; simp at h1
  | serverWrite k h1 h2 h3 h4 => omega
  | dropUp h1 => rw [hs] at h1; simp at h1
  | dropDown h1 => rw [hc] at h1; simp at h1

/-- If the server starts to answer while `L` bytes of the request are still to be sent, and neither pipe takes what is put
into it, the two may come to wait for each other. -/
theorem deadlock (hc : ClientShape client req resp) {L ku kd : Nat} (hs : ServerShape server req resp L)
    (hL : L ≤ req.length) (hsip : ∀ room, (∀ x ∈ room, 0 < x) → ∀ n,
      (server (.start req false (List.replicate (req.length - L) 1) false room)).waits ≠ some (.read n))
    (h1 : 1 ≤ ku) (hu : ku < L) (hd : kd < resp.length) :
    ∃ n x, Link.Run client server req resp ku kd n .init x ∧ Stuck client server req resp ku kd x := by
  have ones : ∀ i, ∀ x ∈ List.replicate i 1, 0 < x := fun i x hx => by rw [(List.mem_replicate.1 hx).2]; omega
  have sum : ∀ i, (List.replicate i 1).sum = i := fun i => by simp
  have more : ∀ i, List.replicate i 1 ++ [1] = List.replicate (i + 1) 1 := fun i => by rw [List.replicate_succ']
  have cwrite : ∀ i, i < req.length → ∃ buf, 1 ≤ buf.length ∧
      (client (.start resp true [] false (List.replicate i 1))).waits = some (.write buf) := by
    intro i hi
    obtain ⟨_, c1, c2, c3⟩ := hc [] (List.replicate i 1) false (by simp) (ones i)
    rcases hw : (client (.start resp true [] false (List.replicate i 1))).waits with _ | n | buf
    · have := c3 hw; rw [sum] at this; omega
    · have := (c2 n hw).2.1; rw [sum] at this; omega
    · exact ⟨buf, List.length_pos_iff.2 (c1 buf hw).1, rfl⟩
  have swrite : ∀ j, j < resp.length → ∃ buf, 1 ≤ buf.length ∧
      (server (.start req false (List.replicate (req.length - L) 1) false (List.replicate j 1))).waits = some (.write buf) := by
    intro j hj
    obtain ⟨_, _, s2, s3⟩ := hs (List.replicate (req.length - L) 1) (List.replicate j 1) (ones _) (ones j)
    rcases hw : (server (.start req false (List.replicate (req.length - L) 1) false (List.replicate j 1))).waits with _ | n | buf
    · have := (s3 hw).1; rw [sum] at this; omega
    · exact absurd hw (hsip _ (ones j) n)
    · exact ⟨buf, List.length_pos_iff.2 (s2 buf hw).1, rfl⟩
  -- the request, up to what the server needs
  have A : ∀ i, i ≤ req.length - L → ∃ n, Link.Run client server req resp ku kd n .init
      ⟨List.replicate i 1, [], false, List.replicate i 1, [], 0, 0⟩ := by
    intro i
    induction i with
    | zero => intro _; exact ⟨0, .refl _⟩
    | succ i ih =>
      intro hi
      obtain ⟨n, hn⟩ := ih (by omega)
      obtain ⟨buf, b1, b2⟩ := cwrite i (by omega)
      have r1 := Link.Run.step hn (.clientWrite (x := ⟨List.replicate i 1, [], false, List.replicate i 1, [], 0, 0⟩) 1 b2
        (by omega) b1 (by dsimp only; omega))
      dsimp only at r1
      obtain ⟨_, s1, s2, s3⟩ := hs (List.replicate i 1) [] (ones i) (by simp)
      rcases hw : (server (.start req false (List.replicate i 1) false [])).waits with _ | m | buf'
      · have := (s3 hw).2; rw [sum] at this; omega
      · have r2 := Link.Run.step r1 (.serverRead (x := ⟨List.replicate i 1 ++ [1], [], false, List.replicate i 1, [], 0 + 1, 0⟩) 1 hw
          (by omega) (s1 m hw).1 (by dsimp only; omega))
        dsimp only at r2
        rw [more] at r2
        exact ⟨_, r2⟩
      · have := (s2 buf' hw).2.2; rw [sum] at this; omega
  -- the answer, up to the size of the pipe
  have B : ∀ j, j ≤ kd → ∃ n, Link.Run client server req resp ku kd n .init
      ⟨List.replicate (req.length - L) 1, [], false, List.replicate (req.length - L) 1, List.replicate j 1, 0, j⟩ := by
    intro j
    induction j with
    | zero => intro _; exact A _ (Nat.le_refl _)
    | succ j ih =>
      intro hj
      obtain ⟨n, hn⟩ := ih (by omega)
      obtain ⟨buf, b1, b2⟩ := swrite j (by omega)
      have r1 := Link.Run.step hn (.serverWrite (x := ⟨List.replicate (req.length - L) 1, [], false,
        List.replicate (req.length - L) 1, List.replicate j 1, 0, j⟩) 1 b2 (by omega) b1 (by dsimp only; omega))
      dsimp only at r1
      rw [more] at r1
      exact ⟨_, r1⟩
  -- the rest of the request, up to the size of the pipe
  have C : ∀ i, i ≤ ku → ∃ n, Link.Run client server req resp ku kd n .init
      ⟨List.replicate (req.length - L + i) 1, [], false, List.replicate (req.length - L) 1, List.replicate kd 1, i, kd⟩ := by
    intro i
    induction i with
    | zero => intro _; exact B _ (Nat.le_refl _)
    | succ i ih =>
      intro hi
      obtain ⟨n, hn⟩ := ih (by omega)
      obtain ⟨buf, b1, b2⟩ := cwrite (req.length - L + i) (by omega)
      have r1 := Link.Run.step hn (.clientWrite (x := ⟨List.replicate (req.length - L + i) 1, [], false,
        List.replicate (req.length - L) 1, List.replicate kd 1, i, kd⟩) 1 b2 (by omega) b1 (by dsimp only; omega))
      dsimp only at r1
      rw [more] at r1
      exact ⟨_, r1⟩
  obtain ⟨n, hn⟩ := C ku (Nat.le_refl _)
  obtain ⟨a, _, ha⟩ := cwrite (req.length - L + ku) (by omega)
  obtain ⟨b, _, hb⟩ := swrite kd hd
  exact ⟨n, _, hn, stuck_of_full ha hb rfl rfl⟩

end

end HttpIo
