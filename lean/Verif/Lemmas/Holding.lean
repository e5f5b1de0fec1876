import Verif.Lemmas.Leftover
import Verif.Props.EndToEnd

/-! A client that stops reading and keeps its connection, for C137. -/

namespace HttpIo
open Spec

theorem Sock.read_closes {s : Sock} (h : s.closes = true) (n : Nat) : (read s n).2.closes = true := by
  rw [Sock.read_def]
  unfold Sock.readImpl
  have := (s.wait_rest (.read n)).2.1
  split
  · exact h
  · split
    · dsimp only
      split
      · exact h
      · rw [this]; exact h
    · split
      · exact h
      · dsimp only
        rw [this]; exact h

/-- A client that is given one byte at a time waits only when fewer than `L` bytes are to come. -/
structure Sock.Nips (L : Nat) (s : Sock) : Prop where
  closes : s.closes = true
  free : s.waits = none → s.Sips L
  held : s.waits ≠ none → (trace s).length < L

theorem nips_kept {L : Nat} (hL : 1 ≤ L) : KeptOn (0 < ·) fun s : Sock => s.Nips L := by
  refine ⟨fun _ h => h, fun s n hn hs => ?_⟩
  have hcl := s.read_closes hs.closes n
  by_cases hw : s.waits = none
  · have hsip := hs.free hw
    rcases hsip.read hL hw n hn with ⟨h1, h2⟩ | ⟨h1, h2⟩
    · refine ⟨hcl, fun h => absurd h h2, fun _ => ?_⟩
      have hl := hsip.left
      rw [h1] at hl
      have h3 : (trace s).length = L := by
        rw [Sock.trace_eq, hs.closes, List.length_append, List.length_map, hl]; simp
      have := read_less s n hn (by intro h; rw [h] at h3; simp at h3; omega)
      omega
    · exact ⟨hcl, fun _ => h2, fun h => absurd h1 h⟩
  · rcases hx : s.waits with _ | a
    · exact absurd hx hw
    · have h1 := s.read_waits n a hx
      exact ⟨hcl, fun h => by rw [h] at h1; simp at h1,
        fun _ => Nat.lt_of_le_of_lt (read_suffix s n).length_le (hs.held hw)⟩

/-- A buffer over a socket that gives one byte at a time, with `k` bytes given. -/
structure Drips {c : Cfg} (L k : Nat) (b : BufReader c Sock) : Prop where
  buf : b.buf = []
  waits : b.inner.waits = none
  sips : b.inner.Sips L
  fed : b.inner.fed.length = k

theorem Drips.read {c : Cfg} {L k : Nat} {b : BufReader c Sock} (h : Drips L (k + 1) b) (n : Nat) (hn : 0 < n) :
    ∃ x b', HttpIo.read b n = (.ok [x], b') ∧ Drips L k b' := by
  obtain ⟨i, buf⟩ := b
  obtain ⟨hb, hw, hs, hf⟩ := h
  dsimp only at hb hw hs hf
  subst hb
  have hl := hs.left
  rcases hfed : i.fed with _ | ⟨m, ks⟩
  · rw [hfed] at hf; simp at hf
  have hm := hs.ones m (by rw [hfed]; simp)
  subst hm
  rcases hi : i.input with _ | ⟨x, xs⟩
  · rw [hi, hf] at hl; simp at hl; omega
  have key : ∀ m, 0 < m → HttpIo.read i m = (.ok [x], { i with input := xs, fed := ks }) := by
    intro m hm
    rw [Sock.read_def]
    unfold Sock.readImpl
    rw [if_neg (by omega), if_neg (by rw [hi]; simp), hw, hfed]
    have hmin : min m (0 + 1) = 1 := by omega
    have hsp : spend m (1 :: ks) = ks := if_pos (by omega)
    dsimp only
    rw [hmin, hi]
    show (Except.ok [x], _) = _
    rw [hsp]
    rfl
  have hd : ∀ buf, buf = ([] : Bytes) → Drips L k (⟨{ i with input := xs, fed := ks }, buf⟩ : BufReader c Sock) := by
    intro buf hbuf
    refine ⟨hbuf, hw, ⟨fun y hy => hs.ones y (by rw [hfed]; exact List.mem_cons_of_mem _ hy), ?_⟩, ?_⟩
    · dsimp only
      rw [hi, hfed] at hl
      simp only [List.length_cons] at hl
      omega
    · dsimp only
      rw [hfed] at hf
      simpa using hf
  rw [BufReader.read_def]
  unfold BufReader.readImpl
  by_cases hc : c.std = true
  · rw [if_pos hc, if_pos (show List.isEmpty ([] : Bytes) = true from rfl)]
    by_cases hcap : n ≥ bufCap
    · rw [if_pos hcap]
      dsimp only
      rw [key n hn]
      exact ⟨x, _, rfl, hd _ rfl⟩
    · rw [if_neg hcap]
      dsimp only
      rw [key bufCap (by unfold bufCap; omega)]
      refine ⟨x, _, ?_, hd _ rfl⟩
      dsimp only
      rw [List.take_of_length_le (by simp; omega), List.drop_eq_nil_of_le (by simp; omega)]
  · rw [if_neg hc]
    dsimp only
    rw [key n hn]
    exact ⟨x, _, rfl, hd _ rfl⟩

/-- The bodies of answers without the chunked coding, with `m` bytes to come. -/
def PlainOver {c : Cfg} (b : BufReader c Sock) (m : Nat) (body : HttpBody c (BufReader c Sock)) : Prop :=
  body = .Limited ⟨b, m⟩ ∨ body = .ReadTilClose b

theorem calls_snd {σ : Type} [Reader σ] (s : σ) (n : Nat) (ns : List Nat) : (calls s (n :: ns)).2 = (calls (Reader.read s n).2 ns).2 := rfl

/-- Reads of such a body that are given one byte each do not wait. -/
theorem drips_calls {c : Cfg} {L : Nat} {sizes : List Nat} (hp : Positive sizes) {b : BufReader c Sock} {m : Nat}
    {body : HttpBody c (BufReader c Sock)} (hb : PlainOver b m body) (hm : sizes.length ≤ m) (hd : Drips L sizes.length b) :
    ∃ b', (calls body sizes).2.under = some b' ∧ b'.inner.waits = none := by
  induction sizes generalizing b m body with
  | nil => rcases hb with rfl | rfl <;> exact ⟨b, rfl, hd.waits⟩
  | cons n ns ih =>
    have hn : 0 < n := hp n (by simp)
    have hp' : Positive ns := fun x hx => hp x (by simp [hx])
    simp only [List.length_cons] at hm
    rcases hb with rfl | rfl
    · obtain ⟨x, b', h1, h2⟩ := hd.read (min n m) (by omega)
      have hr : read (HttpBody.Limited (c := c) ⟨b, m⟩) n = (.ok [x], .Limited ⟨b', m - 1⟩) := by
        rw [HttpBody.read_def]
        unfold HttpBody.readImpl
        dsimp only
        rw [Take.read_def]
        unfold Take.readImpl
        dsimp only
        rw [if_neg (by omega), h1]
        rfl
      rw [calls_snd, hr]
      exact ih hp' (.inl rfl) (by omega) h2
    · obtain ⟨x, b', h1, h2⟩ := hd.read n hn
      have hr : read (HttpBody.ReadTilClose (c := c) b) n = (.ok [x], .ReadTilClose b') := by
        rw [HttpBody.read_def]
        unfold HttpBody.readImpl
        dsimp only
        rw [h1]
      rw [calls_snd, hr]
      exact ih hp' (.inr rfl) (m := m) (by omega) h2

/-- Every read takes a byte off what is to come. -/
theorem plain_calls {c : Cfg} {sizes : List Nat} (hp : Positive sizes) {b : BufReader c Sock} {m : Nat} {ds : Bytes}
    {body : HttpBody c (BufReader c Sock)} (hb : PlainOver b m body) (ht : trace b = ds.map .byte) (hm : ds.length ≤ m) :
    ∃ b', (calls body sizes).2.under = some b' ∧ (trace b').length ≤ ds.length - sizes.length := by
  induction sizes generalizing b m ds body with
  | nil =>
    have : (trace b).length = ds.length := by rw [ht]; simp
    rcases hb with rfl | rfl <;> exact ⟨b, rfl, by simp only [List.length_nil]; omega⟩
  | cons n ns ih =>
    have hn : 0 < n := hp n (by simp)
    have hp' : Positive ns := fun x hx => hp x (by simp [hx])
    have step : ∀ k, 0 < k → ∃ (ds' : Bytes) (b' : BufReader c Sock) (res : Bytes), read b k = (.ok res, b') ∧ trace b' = ds'.map .byte ∧
        ds'.length + res.length = ds.length ∧ ds'.length ≤ ds.length - 1 := by
      intro k hk
      have h := LawfulReader.read_step b k hk
      rcases hr : read b k with ⟨r, b'⟩
      rw [show Reader.read b k = (r, b') from hr] at h
      dsimp only at h
      rw [ht] at h
      generalize hu : ds.map Ev.byte = u at h
      generalize hv : trace b' = v at h
      cases h with
      | eof => exact ⟨[], b', [], rfl, by rw [hv]; rfl, by cases ds <;> simp_all, by simp⟩
      | fault e t _ => cases ds <;> simp at hu
      | data bs t _ h1 h2 =>
        obtain ⟨l1, l2, e1, e2, e3⟩ := List.map_eq_append_iff.1 hu
        have := List.length_pos_iff.2 h1
        have e4 : l1.length = bs.length := by have := congrArg List.length e2; simpa using this
        refine ⟨l2, b', bs, rfl, by rw [hv, e3], ?_, ?_⟩ <;> rw [e1, List.length_append] <;> omega
    simp only [List.length_cons]
    rcases hb with rfl | rfl
    · by_cases hm0 : m = 0
      · have hr : read (HttpBody.Limited (c := c) ⟨b, m⟩) n = (.ok [], .Limited ⟨b, m⟩) := by
          rw [HttpBody.read_def]
          unfold HttpBody.readImpl
          dsimp only
          rw [Take.read_def]
          unfold Take.readImpl
          dsimp only
          rw [if_pos hm0]
        rw [calls_snd, hr]
        obtain ⟨b', g1, g2⟩ := ih hp' (.inl rfl) ht hm
        exact ⟨b', g1, by omega⟩
      · obtain ⟨ds', b', res, h1, h2, h3, h4⟩ := step (min n m) (by omega)
        have hr : read (HttpBody.Limited (c := c) ⟨b, m⟩) n = (.ok res, .Limited ⟨b', m - res.length⟩) := by
          rw [HttpBody.read_def]
          unfold HttpBody.readImpl
          dsimp only
          rw [Take.read_def]
          unfold Take.readImpl
          dsimp only
          rw [if_neg hm0, h1]
        rw [calls_snd, hr]
        obtain ⟨b'', g1, g2⟩ := ih (m := m - res.length) hp' (.inl rfl) h2 (by omega)
        exact ⟨b'', g1, by omega⟩
    · obtain ⟨ds', b', res, h1, h2, h3, h4⟩ := step n hn
      have hr : read (HttpBody.ReadTilClose (c := c) b) n = (.ok res, .ReadTilClose b') := by
        rw [HttpBody.read_def]
        unfold HttpBody.readImpl
        dsimp only
        rw [h1]
      rw [calls_snd, hr]
      obtain ⟨b'', g1, g2⟩ := ih hp' (.inr rfl) (m := m) h2 (by omega)
      exact ⟨b'', g1, by omega⟩

section
variable [CaseMap] {c : Cfg}

/-- The body of an answer without the chunked coding. -/
theorem plain_body (d : Sock) (status : HttpStatus) (headers : HttpHeaders) (bs : Bytes)
    (hh : SendableHeaders headers.entries) (hl : ∀ v, (b!"content-length", v) ∈ headers.entries → LengthText v bs.length)
    (hc : (b!"transfer-encoding", b!"chunked") ∉ headers.entries)
    (hd : trace d = (responseHead status.display headers.entries ++ bs).map .byte) :
    ∃ r d', HttpResponse.deserialize c d = (.ok r, d') ∧ trace d' = bs.map .byte ∧
      PlainOver (BufReader.new c d') bs.length r.body := by
  have hdel : Delivers c (trace d) (responseHead status.display headers.entries) (bs.map .byte) := by
    rw [hd, List.map_append]; exact delivers_map c _ _
  obtain ⟨r, s', f1, f2, _, f3, f4, f5, f6⟩ := response_delivered c d status headers _ hh (fun v hv => ⟨_, hl v hv⟩) hdel
  obtain ⟨_, enc, len, hnew⟩ := response_under f1
  have hne : enc ≠ some b!"chunked" := by
    rintro rfl
    rw [hnew, show framing (HttpBody.new c (some b!"chunked") len (BufReader.new c s')) = .chunked by
      unfold HttpBody.new; rw [if_pos rfl]; rfl] at f4
    cases f4 with
    | chunked h => exact hc h
  refine ⟨r, s', f1, f6, ?_⟩
  rw [hnew] at f4 ⊢
  unfold HttpBody.new at f4 ⊢
  rw [if_neg hne] at f4 ⊢
  cases len with
  | none => exact .inr rfl
  | some n =>
    left
    dsimp only
    by_cases hx : ∃ v, (b!"content-length", v) ∈ headers.entries
    · obtain ⟨v, hv⟩ := hx
      have h := framedBy_unique hh.1 f4 (.limited hc hv (hl v hv))
      simp only [framing, Framing.limited.injEq] at h
      rw [h]
    · have h := framedBy_unique hh.1 f4 (.tilClose hc fun v hv => hx ⟨v, hv⟩)
      simp [framing] at h

/-- How much a client that has what it wanted has been given at least, and how much is enough. -/
theorem client_left (q : Ask) (hq : q.Readable) (host : Bytes) (hhost : q.url.host = some host)
    (status : HttpStatus) (headers : HttpHeaders) (bs : Bytes) (hh : SendableHeaders headers.entries)
    (hc : (b!"transfer-encoding", b!"chunked") ∉ headers.entries)
    (hl : ∀ v, (b!"content-length", v) ∈ headers.entries → LengthText v bs.length)
    (fed room : List Nat) (ended : Bool) (hfed : ∀ x ∈ fed, 0 < x) (hroom : ∀ x ∈ room, 0 < x) :
    let s := (q.run c (Sock.start (responseHead status.display headers.entries ++ bs) true fed ended room)).2
    (s.waits = none → (responseHead status.display headers.entries).length + bs.length ≤ fed.sum + (bs.length - q.sizes.length)) ∧
    (q.sizes.length < bs.length →
      fed = List.replicate ((responseHead status.display headers.entries).length + q.sizes.length) 1 →
      ∀ n, s.waits ≠ some (.read n)) := by
  intro s
  generalize hresp : responseHead status.display headers.entries ++ bs = resp at *
  have hrl : resp.length = (responseHead status.display headers.entries).length + bs.length := by
    rw [← hresp, List.length_append]
  have hk := sock_kept (.start resp true fed ended room) room.sum
  obtain ⟨b, o, o', s1, h1, h2, h3, h4, h5, h6, h7, h8, h9, h10, h11⟩ := ask_sent (c := c) (sock_reliable c) hk
    (.start resp true fed ended room) trivial ⟨rfl, rfl, rfl, rfl, ⟨fun _ => ⟨by simp [Sock.start], hroom⟩, by simp [Sock.start]⟩,
      fun _ => Iff.rfl⟩ q hq.toProper host hhost
  have hnr : ∀ n, s1.waits ≠ some (.read n) := by
    intro n hw
    have := (h11 n).1 hw
    simp [Sock.start] at this
  have htr : trace s1 = resp.map .byte := by
    rw [Sock.trace_eq, h6, h7]
    simp [Sock.start]
  obtain ⟨r, s2, e1, e2, e3⟩ := plain_body (c := c) s1 status headers bs hh hl hc (by rw [htr, hresp])
  have hfin : o'.finish = (.ok r, s2) := by unfold OutgoingRequest.finish; rw [h4]; exact e1
  have hrt : s = (roundTrip q.writes q.sizes o).2 := by
    show (q.run c _).2 = _
    unfold Ask.run
    rw [h1]; dsimp only
    rw [hresp, h2]
  have htb : trace (BufReader.new c s2) = bs.map .byte := by rw [BufReader.trace_new, e2]
  have hs : ∀ b', (calls r.body q.sizes).2.under = some b' → s = b'.inner := by
    intro b' hb'
    rw [hrt]
    unfold roundTrip
    rw [h3]; dsimp only
    rw [hfin]; dsimp only
    rw [hb']; rfl
  constructor
  · intro hw
    have hrk : ReadKept fun s : Sock => s.Reading resp.length fed.sum := ⟨fun s n hs => hs.read n⟩
    have hstart : s1.Reading resp.length fed.sum := by
      refine ⟨fun _ => ?_, fun n hw => absurd hw (hnr n)⟩
      rw [h8, h6]
      exact ⟨hfed, by simp [Sock.start]; omega, .inr (by simp [Sock.start]; omega)⟩
    have hend := roundTrip_readKept (c := c) (sizes := q.sizes) hrk h3 h4 hstart
    rw [← hrt] at hend
    have g := (hend.free hw).2.1
    obtain ⟨b', g1, g2⟩ := plain_calls hq.sizes e3 htb (Nat.le_refl _)
    have g3 := hs b' g1
    have g4 : s.input.length ≤ (trace b').length := by
      have g5 : s.input.length ≤ (trace s).length := by rw [Sock.trace_eq, List.length_append, List.length_map]; omega
      rw [g3] at g5 ⊢
      rw [BufReader.trace_eq]
      split
      · rw [List.length_append]; omega
      · exact g5
    omega
  · intro hlt hf n hw
    rcases hs1 : s1.waits with _ | a
    · have hk := nips_kept (L := bs.length - q.sizes.length) (by omega)
      have hstart : s1.Nips (bs.length - q.sizes.length) := by
        refine ⟨h7, fun _ => ⟨?_, ?_⟩, fun h => absurd hs1 h⟩
        · rw [h8]; show ∀ x ∈ fed, _
          rw [hf]; intro x hx; exact (List.mem_replicate.1 hx).2
        · rw [h6, h8]; show resp.length = fed.length + _
          rw [hf, List.length_replicate]; omega
      have h2 := hk.response (c := c) hstart
      rw [e1] at h2
      dsimp only at h2
      have hlen : (trace s2).length = bs.length := by rw [e2]; simp
      have hfree : s2.waits = none := by
        refine Classical.byContradiction fun h => ?_
        have := h2.held h
        omega
      have hsip := h2.free hfree
      have hl2 : s2.input.length = bs.length := by
        rw [Sock.trace_eq, h2.closes] at hlen
        simpa using hlen
      have hd : Drips (c := c) (bs.length - q.sizes.length) q.sizes.length (BufReader.new c s2) :=
        ⟨rfl, hfree, hsip, by have := hsip.left; show s2.fed.length = _; omega⟩
      obtain ⟨b', g1, g2⟩ := drips_calls hq.sizes e3 (by omega) hd
      rw [hs b' g1, g2] at hw
      simp at hw
    · have hrk : ReadKept fun s : Sock => s.waits = some a := ⟨fun s n hs => s.read_waits n a hs⟩
      have hend := roundTrip_readKept (c := c) (sizes := q.sizes) hrk h3 h4 hs1
      rw [← hrt, hw] at hend
      exact hnr n (by rw [hs1, hend])

end

section
variable {client server : Sock → Sock} {req resp : Bytes} {ku kd : Nat}

theorem heldRun_run {n : Nat} {x y : Link} (h : HeldRun client server req resp ku kd n x y) :
    Link.Run client server req resp ku kd n x y := by
  induction h with
  | refl x => exact .refl x
  | step _ h2 ih => exact .step ih h2.1

/-- Nothing is dropped on the way to a client that holds on. -/
theorem heldRun_down {n : Nat} {x : Link} (h : HeldRun client server req resp ku kd n .init x) :
    x.down + x.clientFed.sum = x.serverRoom.sum := by
  generalize hx0 : Link.init = x0 at h
  induction h with
  | refl x => subst hx0; rfl
  | step _ h2 ih =>
    have ih := ih hx0
    obtain ⟨h2, h3⟩ := h2
    cases h2 with
    | clientWrite => exact ih
    | clientRead k _ _ _ h => rw [List.sum_append]; dsimp only [List.sum_cons, List.sum_nil]; simp; omega
    | clientClosed => exact ih
    | serverRead => exact ih
    | serverWrite k => rw [List.sum_append]; simp; omega
    | dropUp => exact ih
    | dropDown hw h => have := h3 hw; dsimp only at this; omega

/-- As long as not both have finished there is a step, if what is left of the answer fits into the pipe. -/
theorem held_progress (hc : ClientShape client req resp) {L : Nat} (hs : ServerShape server req resp L) (hu : 1 ≤ ku)
    (hd : 1 ≤ kd) (hL : L ≤ ku ∨ resp.length ≤ kd) {x : Link} (hi : LinkInv client server req resp ku kd x)
    (hdown : x.down + x.clientFed.sum = x.serverRoom.sum)
    (hleft : (x.clientEnd client resp).waits = none → resp.length ≤ x.clientFed.sum + kd) :
    Done client server req resp x ∨ ∃ y, HeldStep client server req resp ku kd x y := by
  rcases hcw : (x.clientEnd client resp).waits with _ | a
  · obtain ⟨⟨p1, p2, p3, p4⟩, i1, i2, i3, i4, ⟨i5, i6⟩, ⟨i7, i8⟩, i9⟩ := hi
    obtain ⟨_, c1, c2, c3⟩ := hc x.clientFed x.clientRoom x.clientEnded p2 p1
    obtain ⟨_, s1, s2, s3⟩ := hs x.serverFed x.serverRoom p3 p4
    have c3 := c3 hcw
    have hleft := hleft hcw
    rcases hsw : (x.serverEnd server req).waits with _ | m | buf
    · exact .inl ⟨hcw, hsw⟩
    · have := (s1 m hsw).2
      have e := i6 (by rw [hsw]; simp)
      exact .inr ⟨_, .serverRead 1 hsw (by omega) (s1 m hsw).1 (by omega), fun _ => Nat.le_refl _⟩
    · obtain ⟨k1, k2, _⟩ := s2 buf hsw
      have := List.length_pos_iff.2 k1
      exact .inr ⟨_, .serverWrite 1 hsw (by omega) this (by omega), fun _ => Nat.le_succ _⟩
  · rcases linkInv_progress hc hs hu hd hL hi with h | ⟨y, h⟩
    · exact .inl h
    · exact .inr ⟨y, h, fun hn => by rw [hn] at hcw; simp at hcw⟩

/-- If both finish in every schedule, then in one in which the client gets one byte at a time. -/
theorem held_ones (hc : ClientShape client req resp) {L : Nat} (hs : ServerShape server req resp L)
    (hall : ∀ n x, HeldRun client server req resp ku kd n .init x →
      Done client server req resp x ∨ ∃ y, HeldStep client server req resp ku kd x y)
    {N : Nat} (hN : ∀ room ended, (∀ x ∈ room, 0 < x) → ∀ n,
      (client (.start resp true (List.replicate N 1) ended room)).waits ≠ some (.read n)) :
    ∃ n x, HeldRun client server req resp ku kd n .init x ∧ Done client server req resp x ∧
      ∃ f, f ≤ N ∧ x.clientFed = List.replicate f 1 := by
  have key : ∀ (t n : Nat) (x : Link), x.todo req resp ≤ t → HeldRun client server req resp ku kd n .init x →
      (∃ f, f ≤ N ∧ x.clientFed = List.replicate f 1) →
      ∃ n x, HeldRun client server req resp ku kd n .init x ∧ Done client server req resp x ∧
        ∃ f, f ≤ N ∧ x.clientFed = List.replicate f 1 := by
    intro t
    induction t with
    | zero =>
      intro n x ht hx hf
      rcases hall n x hx with h | ⟨y, h⟩
      · exact ⟨n, x, hx, h, hf⟩
      · have := (linkInv_step hc hs (linkInv_run hc hs (heldRun_run hx)).1 h.1).2
        omega
    | succ t ih =>
      intro n x ht hx hf
      rcases hall n x hx with h | ⟨y, h⟩
      · exact ⟨n, x, hx, h, hf⟩
      have hi := (linkInv_run hc hs (heldRun_run hx)).1
      have go : ∀ y, HeldStep client server req resp ku kd x y → (∃ f, f ≤ N ∧ y.clientFed = List.replicate f 1) →
          ∃ n x, HeldRun client server req resp ku kd n .init x ∧ Done client server req resp x ∧
            ∃ f, f ≤ N ∧ x.clientFed = List.replicate f 1 := by
        intro y hy hfy
        have := (linkInv_step hc hs hi hy.1).2
        exact ih (n + 1) y (by omega) (.step hx hy) hfy
      obtain ⟨h1, h2⟩ := h
      cases h1 with
      | clientWrite k a1 a2 a3 a4 => exact go _ ⟨.clientWrite k a1 a2 a3 a4, h2⟩ hf
      | @clientRead m k a1 a2 a3 a4 =>
        obtain ⟨f, hf1, hf2⟩ := hf
        have hne : f ≠ N := by
          rintro rfl
          refine hN x.clientRoom x.clientEnded hi.pos.1 m ?_
          rw [← hf2]; exact a1
        exact go _ ⟨.clientRead 1 a1 (by omega) (by omega) (by omega), fun hn => by rw [hn] at a1; simp at a1⟩
          ⟨f + 1, by omega, by dsimp only; rw [hf2, List.replicate_succ']⟩
      | clientClosed a1 a2 a3 a4 => exact go _ ⟨.clientClosed a1 a2 a3 a4, h2⟩ hf
      | serverRead k a1 a2 a3 a4 => exact go _ ⟨.serverRead k a1 a2 a3 a4, h2⟩ hf
      | serverWrite k a1 a2 a3 a4 => exact go _ ⟨.serverWrite k a1 a2 a3 a4, h2⟩ hf
      | dropUp a1 a2 => exact go _ ⟨.dropUp a1 a2, h2⟩ hf
      | dropDown a1 a2 => exact go _ ⟨.dropDown a1 a2, h2⟩ hf
  exact key _ 0 .init (Nat.le_refl _) (.refl _) ⟨0, Nat.zero_le _, rfl⟩

/-- If what the server leaves unread does not fit into the pipe to it and the response does not fit into the other, some schedule
gets stuck: the server gets one byte at a time. -/
theorem held_never (hc : ClientShape client req resp) {L : Nat} (hs : ServerShape server req resp L)
    (hall : ∀ n x, HeldRun client server req resp ku kd n .init x →
      Done client server req resp x ∨ ∃ y, HeldStep client server req resp ku kd x y)
    (hu : ku < L) (hd : kd < resp.length) (hle : L ≤ req.length)
    (hN : ∀ room, (∀ x ∈ room, 0 < x) → ∀ n,
      (server (.start req false (List.replicate (req.length - L) 1) false room)).waits ≠ some (.read n)) : False := by
  have key : ∀ (t n : Nat) (x : Link), x.todo req resp ≤ t → HeldRun client server req resp ku kd n .init x →
      x.clientFed = [] → x.serverRoom.sum ≤ kd → (∃ f, f ≤ req.length - L ∧ x.serverFed = List.replicate f 1) → False := by
    intro t
    induction t with
    | zero =>
      intro n x ht hx hcf hsr hf
      have hi := (linkInv_run hc hs (heldRun_run hx)).1
      rcases hall n x hx with h | ⟨y, h⟩
      · have := ((hs _ _ hi.pos.2.2.1 hi.pos.2.2.2).2.2.2 h.2).1
        omega
      · have := (linkInv_step hc hs hi h.1).2
        omega
    | succ t ih =>
      intro n x ht hx hcf hsr hf
      have hi := (linkInv_run hc hs (heldRun_run hx)).1
      obtain ⟨f, hf1, hf2⟩ := hf
      have hsw : (x.serverEnd server req).waits ≠ none := fun h => by
        have := ((hs _ _ hi.pos.2.2.1 hi.pos.2.2.2).2.2.2 h).1
        omega
      have hup := hi.up.2 hsw
      rw [hf2] at hup
      simp only [List.sum_replicate_nat, Nat.mul_one] at hup
      have hroom := hi.upRoom
      obtain ⟨_, _, c2, c3⟩ := hc x.clientFed x.clientRoom x.clientEnded hi.pos.2.1 hi.pos.1
      have hcw : (x.clientEnd client resp).waits ≠ none := fun h => by have := c3 h; omega
      have hcr : ∀ n, (x.clientEnd client resp).waits ≠ some (.read n) := fun n h => by have := (c2 n h).2.1; omega
      have hdown := hi.down.2 hcw
      rw [hcf] at hdown
      simp only [List.sum_nil, Nat.add_zero] at hdown
      rcases hall n x hx with h | ⟨y, h1, h2⟩
      · exact hsw h.2
      have go : ∀ y, HeldStep client server req resp ku kd x y → y.clientFed = [] → y.serverRoom.sum ≤ kd →
          (∃ f, f ≤ req.length - L ∧ y.serverFed = List.replicate f 1) → False := by
        intro y hy h1 h2 h3
        have := (linkInv_step hc hs hi hy.1).2
        exact ih (n + 1) y (by omega) (.step hx hy) h1 h2 h3
      cases h1 with
      | clientWrite k a1 a2 a3 a4 => exact go _ ⟨.clientWrite k a1 a2 a3 a4, h2⟩ hcf hsr ⟨f, hf1, hf2⟩
      | clientRead k a1 => exact hcr _ a1
      | clientClosed a1 => exact hcr _ a1
      | @serverRead m k a1 a2 a3 a4 =>
        have hne : f ≠ req.length - L := by
          rintro rfl
          refine hN x.serverRoom hi.pos.2.2.2 m ?_
          rw [← hf2]; exact a1
        exact go _ ⟨.serverRead 1 a1 (by omega) (by omega) (by omega), fun hn => absurd hn hcw⟩ hcf hsr
          ⟨f + 1, by omega, by dsimp only; rw [hf2, List.replicate_succ']⟩
      | serverWrite k a1 a2 a3 a4 =>
        refine go _ ⟨.serverWrite k a1 a2 a3 a4, h2⟩ hcf ?_ ⟨f, hf1, hf2⟩
        dsimp only
        rw [List.sum_append]
        simp only [List.sum_cons, List.sum_nil]
        omega
      | dropUp a1 => exact hsw a1
      | dropDown a1 => exact hcw a1
  exact key _ 0 .init (Nat.le_refl _) (.refl _) rfl (Nat.zero_le _) ⟨0, Nat.zero_le _, rfl⟩

end

end HttpIo
