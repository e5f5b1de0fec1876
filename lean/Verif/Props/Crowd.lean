import Verif.Lemmas.Crowd
import Verif.Props.Holding

/-! C138: several clients at the same time. -/

namespace HttpIo
open Spec

section
variable [CaseMap] {c c' : Cfg} {η ρ ε : Type} [LawfulReader ρ] [ZeroReader ρ]

/-- The request as the server reads it. -/
theorem server_request (q : Ask) (hq : q.Readable) (host : Bytes) (hhost : q.url.host = some host)
    (s : Sock) (hi : s.input = asked q host) (hc : s.closes = false) :
    ∃ rq s1, HttpRequest.deserialize c' (BufReader.new c' s) = (.ok rq, s1) ∧ Acceptable rq ∧
      rq.method = (if q.put then .Put else .Get) ∧ rq.uri = requestTarget { q.url with query := none } ∧
      (q.put = true → Yields rq.body (written q.writes).flatten) := by
  have htr : trace s = (asked q host).map .byte ++ [.fault Sock.hang] := by rw [Sock.trace_eq, hi, hc]; rfl
  cases hput : q.put with
  | false =>
    obtain ⟨hd, k1, k2, k3, _⟩ := standard_ok .Get host (hq.host_text host hhost)
    have hdel : Delivers c' (trace s) (requestHead .Get (requestTarget { q.url with query := none }) hd.entries)
        [.fault Sock.hang] := by
      rw [htr, k1]
      simp only [asked, hput]
      exact delivers_map c' _ _
    obtain ⟨rq, s1, f1, f2, f3, _⟩ := C18_roundtrip c' (BufReader.new c' s) .Get _ hd _ hq.target k2 k3
      (by rwa [BufReader.trace_new])
    exact ⟨rq, s1, f1, by intro hm; rw [f2] at hm; simp at hm, f2, f3, by simp⟩
  | true =>
    obtain ⟨hd, k1, k2, k3, k4⟩ := standard_ok .Put host (hq.host_text host hhost)
    obtain ⟨chs, q1, q2⟩ := chunksFor (written q.writes) hq.small
    have hask : asked q host = requestHead .Put (requestTarget { q.url with query := none }) hd.entries ++
        (chunkedBytes chs b!"0" ++ [13, 10]) := by
      rw [k1]
      simp only [asked, hput, if_pos, q2, chunkedBytes]
      simp
    have hdel : Delivers c' (trace s) (requestHead .Put (requestTarget { q.url with query := none }) hd.entries)
        ((chunkedBytes chs b!"0").map .byte ++ ([13, 10].map .byte ++ [.fault Sock.hang])) := by
      rw [htr, hask, List.map_append, List.map_append, List.append_assoc, List.append_assoc]
      exact delivers_map c' _ _
    obtain ⟨rq, s1, f1, f2, f3, _, _, f4, f5, f6⟩ := C18_roundtrip c' (BufReader.new c' s) .Put _ hd _ hq.target k2 k3
      (by rwa [BufReader.trace_new])
    have hfr := framedBy_unique k2.1 f4 (.chunked (k4 (by unfold Carries; simp)))
    obtain ⟨_, enc, len, hnew⟩ := request_under f1
    have hbody : rq.body = HttpBody.new c' (some b!"chunked") len s1 := by
      rw [hnew] at hfr ⊢
      unfold HttpBody.new at hfr ⊢
      by_cases henc : enc = some b!"chunked"
      · rw [henc]
      · rw [if_neg henc] at hfr
        cases len <;> simp [framing] at hfr
    have hdc := deliversChunked_map c' chs b!"0" ([13, 10].map .byte ++ [.fault Sock.hang])
    rw [← f6] at hdc
    have d1 := (decode_sized c' len s1 chs b!"0" _ (fun ch h => (q1.1 ch h).1) (.inl (.one (.dec 0 (by omega) (by omega)))) hdc).1
    rw [← hbody, chunkedData_for q1] at d1
    exact ⟨rq, s1, f1, by intro _ hf; rw [hf] at hfr; simp at hfr, f2, f3, fun _ => d1⟩

/-- Serving one connection: it succeeds, and leaves this state. -/
theorem serveOne_turns (q : Ask) (hq : q.Readable) (host : Bytes) (hhost : q.url.host = some host)
    (h : Handler c' η Sock ρ ε) (ho : OnlyReads h) (errText : Err → Bytes) (self self' : η) (reply : Reply ε (ServerResponse c' ρ))
    (hw : RepliesAnyhow h q self reply) (r : ServerResponse c' ρ) (hr : AnswerIs h reply r) (bs : Bytes) (ha : Answers r bs)
    (ht : Turns h q self reply self') (s : Sock) (hi : s.input = asked q host) (hc : s.closes = false) :
    (h.serveOne errText (.ok s) self).1 = .ok () ∧ (h.serveOne errText (.ok s) self).2.2 = self' := by
  have hra : ReadsApart Sock := fun s n => (s.read_rest n).1
  obtain ⟨t, hd, he⟩ := ha.body
  obtain ⟨g1, _⟩ := serve_succeeds hra (sock_reliable c') (fun _ _ _ => trivial) h ho errText s self trivial r
    ((server_left q hq host hhost h self reply hw errText s hi hc).1 r hr) ha.version bs t hd he
  refine ⟨g1, ?_⟩
  obtain ⟨rq, s1, f1, f2, f3, f4, f5⟩ := server_request (c' := c') q hq host hhost s hi hc
  have hin := serveOneInner_handled h errText self f1 f2
  rw [f3, f4] at hin
  obtain ⟨mid, m1, m2⟩ := ht
  have key : ∃ body, h.serveOneInner errText s self = (reply.mapErr h.into, body, mid) := by
    unfold RepliesAnyhow at hw
    dsimp only at hw
    cases hput : q.put with
    | false =>
      rw [hput] at hin hw m1
      simp only [Bool.false_eq_true, if_false] at hin hw m1
      dsimp only [handled] at hin
      rw [hw, m1] at hin
      exact ⟨_, hin⟩
    | true =>
      rw [hput] at hin hw m1
      simp only [if_pos] at hin hw m1
      dsimp only [handled] at hin
      rw [(hw rq.body (f5 hput)).1, m1 rq.body (f5 hput)] at hin
      exact ⟨_, hin⟩
  obtain ⟨conn, hin⟩ := key
  unfold Handler.serveOne at g1 ⊢
  dsimp only at g1 ⊢
  rw [hin] at g1 ⊢
  rcases hr with hr | ⟨e, hr, hr'⟩
  · rw [hr] at g1 m2 ⊢
    dsimp only [Reply.mapErr] at g1 m2 ⊢
    rcases hres : respond c' r conn with ⟨e | _, body, s2⟩ <;> rw [hres] at g1
    · simp at g1
    · exact m2 body
  · rw [hr] at g1 m2 ⊢
    dsimp only [Reply.mapErr] at g1 m2 ⊢
    rcases hres : respond c' (h.into e) conn with ⟨e | _, body, s2⟩ <;> rw [hres] at g1
    · simp at g1
    · exact m2.symm

/-- The bytes of a client's request. -/
def Spec.Guest.req (g : Guest) : Bytes := asked g.q (g.q.url.host.getD [])

/-- The client as a program. -/
def Spec.Guest.party (c : Cfg) (g : Guest) : Party :=
  ⟨fun s => (g.q.run c s).2, g.req, responseHead g.status.display g.headers.entries ++ g.bs, g.holds⟩

/-- A client whose turn it is. -/
def Fits (h : Handler c' η Sock ρ ε) (self : η) (g : Guest) : Prop :=
  g.q.Readable ∧ ∃ reply r, Treats h g.q self reply g.left ∧ AnswerIs h reply r ∧ Answers r g.bs ∧ r.status = g.status ∧ r.headers = g.headers

/-- The connections, as the server sees them. -/
def socksOf (reqs : List Bytes) (links : List Link) : List (Res Sock) :=
  List.zipWith (fun req (x : Link) => Res.ok (Sock.start req false x.serverFed false x.serverRoom)) reqs links

theorem agenda_states {h : Handler c' η Sock ρ ε} (ho : OnlyReads h) (errText : Err → Bytes) {self : η} {gs : List Guest}
    (hA : Agenda h self gs) : ∃ st : Nat → η,
      (∀ links : List Link, links.length = gs.length → ∀ i, i ≤ gs.length →
        (h.serveForever errText ((socksOf (gs.map Guest.req) links).take i) self).2 = st i ∧
        ∀ res ∈ (h.serveForever errText ((socksOf (gs.map Guest.req) links).take i) self).1, res.1 = .ok ()) ∧
      ∀ i g, gs[i]? = some g → Fits h (st i) g := by
  induction hA with
  | nil self =>
    refine ⟨fun _ => self, fun links _ i _ => ?_, fun i g hg => by simp at hg⟩
    rw [show socksOf (([] : List Guest).map Guest.req) links = [] from rfl, List.take_nil]
    exact ⟨rfl, by intro res hres; simp [Handler.serveForever] at hres⟩
  | @cons self self' g gs reply r hq hw hr ha hst hhd ht _ ih =>
    obtain ⟨st, h1, h2⟩ := ih
    obtain ⟨host, hhost⟩ := hq.host
    refine ⟨fun i => match i with | 0 => self | i + 1 => st i, fun links hl i hi => ?_, fun i g' hg' => ?_⟩
    · cases i with
      | zero => exact ⟨rfl, by intro res hres; simp [Handler.serveForever] at hres⟩
      | succ i =>
        cases links with
        | nil => simp at hl
        | cons x links =>
          obtain ⟨k1, k2⟩ := h1 links (by simpa using hl) i (by simpa using hi)
          obtain ⟨t1, t2⟩ := serveOne_turns g.q hq host hhost h ho errText self self' reply hw.anyhow r hr g.bs ha ht
            (Sock.start g.req false x.serverFed false x.serverRoom)
            (by show g.req = _; unfold Guest.req; rw [hhost]; rfl) rfl
          rw [show socksOf ((g :: gs).map Guest.req) (x :: links) =
            .ok (Sock.start g.req false x.serverFed false x.serverRoom) :: socksOf (gs.map Guest.req) links from rfl, List.take_succ_cons]
          rcases hone : h.serveOne errText (.ok (Sock.start g.req false x.serverFed false x.serverRoom)) self with ⟨res, conn, self1⟩
          rw [hone] at t1 t2
          dsimp only at t1 t2
          subst t1; subst t2
          unfold Handler.serveForever
          rw [hone]
          dsimp only
          refine ⟨k1, fun res hres => ?_⟩
          simp only [List.mem_cons] at hres
          rcases hres with rfl | hres
          · rfl
          · exact k2 res hres
    · cases i with
      | zero =>
        simp only [List.getElem?_cons_zero, Option.some.injEq] at hg'
        subst hg'
        exact ⟨hq, reply, r, hw, hr, ha, hst, hhd⟩
      | succ i => exact h2 i g' (by simpa using hg')

theorem zipWith_self {α β γ : Type} (f : α → β → γ) (g : α → β) (l : List α) : List.zipWith f l (l.map g) = l.map fun a => f a (g a) := by
  induction l with
  | nil => rfl
  | cons a l ih => simp [ih]

theorem map_some {α β : Type} {l : List α} {f : α → β} {i : Nat} {b : β} (h : (l.map f)[i]? = some b) : ∃ a, l[i]? = some a ∧ b = f a := by
  rw [List.getElem?_map] at h
  cases hx : l[i]? with
  | none => rw [hx] at h; simp at h
  | some a => rw [hx] at h; exact ⟨a, rfl, by simpa using h.symm⟩

/-- How much of the requests is left unread. -/
def leftOf (gs : List Guest) (i : Nat) : Nat := (gs[i]?.map Guest.left).getD 0

theorem leftOf_some {gs : List Guest} {i : Nat} {g : Guest} (h : gs[i]? = some g) : leftOf gs i = g.left := by
  unfold leftOf; rw [h]; rfl

/-- The programs of the clients and of the server have the shapes that were proved of them. -/
theorem crowd_shaped {h : Handler c' η Sock ρ ε} (ho : OnlyReads h) (errText : Err → Bytes) {self : η} {gs : List Guest}
    {st : Nat → η}
    (hst : ∀ links : List Link, links.length = gs.length → ∀ i, i ≤ gs.length →
        (h.serveForever errText ((socksOf (gs.map Guest.req) links).take i) self).2 = st i)
    (hf : ∀ i g, gs[i]? = some g → Fits h (st i) g) :
    Shaped (gs.map (Guest.party c))
      (fun links i => serving h errText (h.serveForever errText ((socksOf (gs.map Guest.req) links).take i) self).2)
      (fun i => serving h errText (st i)) (leftOf gs) := by
  refine ⟨fun links hl i hi => ?_, fun i p hp => ?_, fun i p hp => ?_⟩
  · rw [List.length_map] at hl hi
    rw [hst links hl i (Nat.le_of_lt hi)]
  · obtain ⟨g, hg, rfl⟩ := map_some hp
    obtain ⟨hq, _⟩ := hf i g hg
    obtain ⟨host, hhost⟩ := hq.host
    intro fed room ended h1 h2
    have := client_shape (c := c) g.q hq.toProper host hhost (responseHead g.status.display g.headers.entries ++ g.bs) fed room ended h1 h2
    rwa [show asked g.q host = g.req by unfold Guest.req; rw [hhost]; rfl] at this
  · obtain ⟨g, hg, rfl⟩ := map_some hp
    obtain ⟨hq, reply, r, hw, hr, ha, e1, e2⟩ := hf i g hg
    obtain ⟨host, hhost⟩ := hq.host
    have := server_shape_left g.q hq host hhost h (st i) reply hw.anyhow ho errText r hr g.bs ha g.left
      fun n hn => by rw [hw.leaves n hn]; exact Nat.le_refl _
    rw [e1, e2] at this
    rw [leftOf_some hg]
    rwa [show asked g.q host = (g.party c).req by show _ = g.req; unfold Guest.req; rw [hhost]; rfl] at this

/-- Any number of clients at the same time, and a handler that reads uploads to their end or does not look at them. They are all
served, whatever the scheduling, exactly if for every client what the handler leaves unread of its request fits into the pipe to
the server or the answer into the other pipe, and, if it keeps its connection open, what it may leave unread of the answer fits
into the pipe to it. -/
theorem C138_exact (h : Handler c' η Sock ρ ε) (ho : OnlyReads h) (errText : Err → Bytes) (self : η) (gs : List Guest)
    (hA : Agenda h self gs) (ku kd : Nat) (hu : 1 ≤ ku) (hd : 1 ≤ kd) :
    AllServed c h errText self gs ku kd ↔ ∀ g ∈ gs,
      (g.left ≤ ku ∨ (responseHead g.status.display g.headers.entries ++ g.bs).length ≤ kd) ∧
      (g.holds = true → g.bs.length ≤ kd + g.q.sizes.length) := by
  have e1 : utf8 "transfer-encoding" = b!"transfer-encoding" := by decide +kernel
  have e2 : utf8 "chunked" = b!"chunked" := by decide +kernel
  have e3 : utf8 "content-length" = b!"content-length" := by decide +kernel
  obtain ⟨st, hst, hf⟩ := agenda_states ho errText hA
  have hsh := crowd_shaped (c := c) ho errText (fun links hl i hi => (hst links hl i hi).1) hf
  have hleft : ∀ (i : Nat) (g : Guest), gs[i]? = some g → ∀ (fed room : List Nat) (ended : Bool), (∀ x ∈ fed, 0 < x) → (∀ x ∈ room, 0 < x) →
      let s := (g.q.run c (Sock.start (responseHead g.status.display g.headers.entries ++ g.bs) true fed ended room)).2
      (s.waits = none → (responseHead g.status.display g.headers.entries).length + g.bs.length ≤
        fed.sum + (g.bs.length - g.q.sizes.length)) ∧
      (g.q.sizes.length < g.bs.length →
        fed = List.replicate ((responseHead g.status.display g.headers.entries).length + g.q.sizes.length) 1 →
        ∀ n, s.waits ≠ some (.read n)) := by
    intro i g hg fed room ended h1 h2
    obtain ⟨hq, reply, r, hw, hr, ha, hs, hh⟩ := hf i g hg
    obtain ⟨host, hhost⟩ := hq.host
    have := client_left (c := c) g.q hq host hhost r.status r.headers g.bs ha.sendable (by have := ha.plain; rwa [e1, e2] at this)
      (by have := ha.length; rwa [e3] at this) fed room ended h1 h2
    rwa [hs, hh] at this
  have hps := zipWith_self (fun (g : Guest) req =>
    (⟨fun s => (g.q.run c s).2, req, responseHead g.status.display g.headers.entries ++ g.bs, g.holds⟩ : Party)) Guest.req gs
  have hlen : gs.length = (gs.map (Guest.party c)).length := by simp
  constructor
  · rintro ⟨reqs, hl, _, hall⟩
    have hreqs : reqs = gs.map Guest.req := by
      apply List.ext_getElem?
      intro i
      rw [List.getElem?_map]
      cases hg : gs[i]? with
      | none =>
        rw [List.getElem?_eq_none_iff] at hg
        rw [List.getElem?_eq_none_iff.2 (by omega)]; rfl
      | some g =>
        have hlt := lt_of_some hg
        have hr : reqs[i]? = some reqs[i] := List.getElem?_eq_getElem (by omega)
        obtain ⟨hq, _⟩ := hf i g hg
        obtain ⟨host, hhost⟩ := hq.host
        have := ((hall 0 _ (.refl _)).2.2.2 i g _ .init hg (List.getElem?_zipWith_eq_some.2 ⟨g, reqs[i], hg, hr, rfl⟩)
          (by rw [List.getElem?_map, hg]; rfl)).1
        have h2 := (client_shape (c := c) g.q hq.toProper host hhost (responseHead g.status.display g.headers.entries ++ g.bs) [] []
          false (by simp) (by simp)).1
        dsimp only at this
        rw [hr, Option.map_some, Option.some.injEq, ← this]
        unfold Guest.req
        rw [hhost]
        exact h2
    subst hreqs
    dsimp only at hall
    rw [hps] at hall
    intro g hg
    obtain ⟨i, hi⟩ := List.getElem?_of_mem hg
    have hp : (gs.map (Guest.party c))[i]? = some (g.party c) := by rw [List.getElem?_map, hi]; rfl
    refine ⟨Classical.byContradiction fun hn => ?_, fun hh => Classical.byContradiction fun hn => ?_⟩
    · rw [not_or] at hn
      obtain ⟨hq, reply, r, hw, hr, ha, e1, e2⟩ := hf i g hi
      obtain ⟨host, hhost⟩ := hq.host
      have hreq : asked g.q host = (g.party c).req := by show _ = g.req; unfold Guest.req; rw [hhost]; rfl
      have hle := hw.left_le host
      refine crowd_never hsh gs hlen (fun n x hx => (hall n x hx).2.1) hp (by rw [leftOf_some hi]; omega)
        (by show kd < (responseHead g.status.display g.headers.entries ++ g.bs).length; omega)
        (by rw [leftOf_some hi, ← hreq]; exact hle) fun room hroom n => ?_
      rw [leftOf_some hi, ← hreq]
      exact server_sips g.q hq host hhost h (st i) reply hw.anyhow ho errText r hr g.bs ha g.left hw.leaves (by omega) hle room hroom n
    · obtain ⟨n, x, a, hrun, hdone, ha, f, hf1, hf2⟩ := crowd_ones hsh gs hlen (fun n x hx => (hall n x hx).2.1) hp
        (N := (responseHead g.status.display g.headers.entries).length + g.q.sizes.length) fun room ended hroom => by
          refine (hleft i g hi _ room ended ?_ hroom).2 (by omega) rfl
          intro x hx
          rw [(List.mem_replicate.1 hx).2]; omega
      have hinv := (crowdInv_run hsh gs hlen hrun).1
      obtain ⟨i1, i2, _, _⟩ := hinv.link i _ a hp ha
      have hL := hsh.server i _ hp
      have hd1 := hdone i _ a hp ha
      have hsame := hsh.same _ hinv.length i (lt_of_some hp)
      dsimp only at hd1
      rw [hsame] at hd1
      have h1 := ((hL _ _ i1.pos.2.2.1 i1.pos.2.2.2).2.2.2 hd1.2).1
      have h2 := i2 hh
      have h3 := i1.downRoom
      rw [hf2] at h2
      simp only [List.sum_replicate_nat, Nat.mul_one] at h2
      replace h1 : (responseHead g.status.display g.headers.entries ++ g.bs).length ≤ a.serverRoom.sum := h1
      rw [List.length_append] at h1
      omega
  · intro hfit
    refine ⟨gs.map Guest.req, by simp, fun i g req hg hr => ?_, ?_⟩
    · obtain ⟨g', hg', rfl⟩ := map_some hr
      rw [hg, Option.some.injEq] at hg'
      subst hg'
      obtain ⟨hq, _⟩ := hf i g hg
      obtain ⟨host, hhost⟩ := hq.host
      have := asked_bytes g.q hq.toProper host hhost
      unfold Guest.req
      rwa [hhost]
    dsimp only
    rw [hps]
    intro n x hrun
    obtain ⟨hinv, hn⟩ := crowdInv_run hsh gs hlen hrun
    have hxl : x.links.length = gs.length := by rw [hinv.length]; simp
    refine ⟨by have := hn; exact Nat.le_trans (Nat.le_add_right _ _) this, ?_, ?_, ?_⟩
    · refine crowd_progress hsh (by omega) hd (fun i p hp => ?_) hinv fun i p a hp ha hh hw => ?_
      · obtain ⟨g, hg, rfl⟩ := map_some hp
        rw [leftOf_some hg]
        exact (hfit g (List.mem_of_getElem? hg)).1
      obtain ⟨g, hg, rfl⟩ := map_some hp
      obtain ⟨i1, _⟩ := hinv.link i _ a hp ha
      have := (hleft i g hg a.clientFed a.clientRoom a.clientEnded i1.pos.2.1 i1.pos.1).1 hw
      have := (hfit g (List.mem_of_getElem? hg)).2 hh
      show (responseHead g.status.display g.headers.entries ++ g.bs).length ≤ _
      rw [List.length_append]
      omega
    · have := (hst x.links hxl gs.length (Nat.le_refl _)).2
      rwa [List.take_of_length_le (by unfold socksOf; rw [List.length_zipWith]; simp; omega)] at this
    · intro i g p a hg hp ha
      obtain ⟨g', hg', rfl⟩ := map_some hp
      rw [hg, Option.some.injEq] at hg'
      subst hg'
      obtain ⟨i1, _⟩ := hinv.link i _ a hp ha
      have hL := hsh.server i _ hp
      have hsame := hsh.same _ hinv.length i (lt_of_some hp)
      refine ⟨(hsh.client i _ hp _ _ _ i1.pos.2.1 i1.pos.1).1, ?_, ?_⟩
      · have := (hL _ _ i1.pos.2.2.1 i1.pos.2.2.2).1
        rw [← hsame] at this
        exact this
      · obtain ⟨hq, reply, r, hw, hr, ha, hs, hh⟩ := hf i g hg
        obtain ⟨host, hhost⟩ := hq.host
        have := client_gets (c := c) g.q hq host hhost r.status r.headers g.bs ha.sendable (by have := ha.plain; rwa [e1, e2] at this)
          (by have := ha.length; rwa [e3] at this) a.clientFed a.clientRoom a.clientEnded
        rwa [hs, hh] at this

omit [LawfulReader ρ] [ZeroReader ρ] in
/-- The test server and a request that its script expects next. -/
theorem test_turn (q : Ask) (e : ExpectedRequest) (es : List ExpectedRequest)
    (hm : e.expectedMethod = if q.put then .Put else .Get)
    (hu : e.expectedUri = requestTarget { q.url with query := none })
    (hb : q.put = true → e.expectedBody = (written q.writes).flatten ∧ IsText e.expectedBody)
    (hh : e.responseHeaders.entries = []) :
    Replies (testHandler c' Sock) q (e :: es) (.ok (ServerResponse.fromString c' e.responseStatus e.responseBody)) ∧
    Turns (testHandler c' Sock) q (e :: es) (.ok (ServerResponse.fromString c' e.responseStatus e.responseBody)) es := by
  unfold Replies Turns
  dsimp only
  cases hput : q.put with
  | false =>
    rw [hput] at hm
    simp only [Bool.false_eq_true, if_false] at hm ⊢
    have : (testHandler c' Sock).get (requestTarget { q.url with query := none }) (e :: es) =
        (.ok (ServerResponse.fromString c' e.responseStatus e.responseBody), es) := by
      show TestRequestHandler.get c' _ (e :: es) = _
      unfold TestRequestHandler.get
      dsimp only
      rw [if_neg (by rw [hm]; simp), if_neg (by rw [hu]; simp), hh]
      rfl
    rw [this]
    exact ⟨rfl, es, rfl, fun _ => rfl⟩
  | true =>
    rw [hput] at hm
    simp only [if_pos] at hm ⊢
    obtain ⟨hb1, hb2⟩ := hb hput
    have key : ∀ body : HttpBody c' (BufReader c' Sock), Yields body (written q.writes).flatten → ∃ b sizes,
        (testHandler c' Sock).put (requestTarget { q.url with query := none }) body (e :: es) =
          (.ok (ServerResponse.fromString c' e.responseStatus e.responseBody), b, es) ∧
        Positive sizes ∧ .ok [] ∈ (calls body sizes).1 ∧ b = (calls body sizes).2 := by
      intro body hy
      obtain ⟨k, b, f, g1, g2⟩ := collects (c := c') body _ (trace_of_yields hy)
      obtain ⟨sizes, k1, k2, k3⟩ := copy_calls c' body (Sink.mk [] 0 []) 0
      rw [g1] at k1 k3
      refine ⟨b, sizes, ?_, k2, k3 k rfl, k1⟩
      show TestRequestHandler.put _ body (e :: es) = _
      unfold TestRequestHandler.put
      dsimp only
      rw [if_neg (by rw [hm]; simp), if_neg (by rw [hu]; simp), g1]
      dsimp only
      rw [if_neg (by rw [g2, ← hb1, (validUtf8_iff _).2 hb2]; simp), if_neg (by rw [g2, hb1]; simp)]
    refine ⟨fun body hy => ?_, es, fun body hy => ?_, fun _ => rfl⟩
    · obtain ⟨b, sizes, k1, k2, k3, k4⟩ := key body hy
      rw [k1]
      exact ⟨rfl, sizes, k2, k3, k4⟩
    · obtain ⟨b, sizes, k1, _⟩ := key body hy
      rw [k1]

/-- The same for the crate's test server: as many clients as its script has entries, the requests as the script expects them. -/
theorem C138_test (cs : List (Ask × Bool × ExpectedRequest)) (errText : Err → Bytes)
    (hcs : ∀ x ∈ cs, x.1.Readable ∧ x.2.2.expectedMethod = (if x.1.put then .Put else .Get) ∧
      x.2.2.expectedUri = requestTarget { x.1.url with query := none } ∧
      (x.1.put = true → x.2.2.expectedBody = (written x.1.writes).flatten ∧ IsText x.2.2.expectedBody) ∧
      x.2.2.responseHeaders.entries = []) (ku kd : Nat) (hu : 2 ≤ ku) (hd : 1 ≤ kd) :
    AllServed c (testHandler c' Sock) errText (cs.map (·.2.2))
        (cs.map fun x => ⟨x.1, x.2.1, if x.1.put then 2 else 0, x.2.2.responseStatus, .new, x.2.2.responseBody⟩) ku kd ↔
      ∀ x ∈ cs, x.2.1 = true → x.2.2.responseBody.length ≤ kd + x.1.sizes.length := by
  have hA : Agenda (testHandler c' Sock) (cs.map (·.2.2))
      (cs.map fun x => ⟨x.1, x.2.1, if x.1.put then 2 else 0, x.2.2.responseStatus, .new, x.2.2.responseBody⟩) := by
    induction cs with
    | nil => exact .nil _
    | cons x cs ih =>
      obtain ⟨h1, h2, h3, h4, h5⟩ := hcs x (by simp)
      obtain ⟨t1, t2⟩ := test_turn (c' := c') x.1 x.2.2 (cs.map (·.2.2)) h2 h3 h4 h5
      exact .cons h1 (treats_of_replies t1) (.inl rfl) (fromString_answers _ _) rfl rfl t2 (ih fun y hy => hcs y (by simp [hy]))
  rw [C138_exact (testHandler c' Sock) testHandler_onlyReads errText _ _ hA ku kd (by omega) hd]
  refine ⟨fun h x hx => (h _ (List.mem_map_of_mem hx)).2, fun h g hg => ?_⟩
  obtain ⟨x, hx, rfl⟩ := List.mem_map.1 hg
  exact ⟨.inl (by dsimp only; split <;> omega), h x hx⟩

/-- Clients that close their connections when they have what they wanted hold up each other only if what the handler leaves unread
of an upload does not fit and the answer does not either. -/
theorem C138_closing (h : Handler c' η Sock ρ ε) (ho : OnlyReads h) (errText : Err → Bytes) (self : η) (gs : List Guest)
    (hA : Agenda h self gs) (hc : ∀ g ∈ gs, g.holds = false) (ku kd : Nat) (hu : 1 ≤ ku) (hd : 1 ≤ kd) :
    AllServed c h errText self gs ku kd ↔
      ∀ g ∈ gs, g.left ≤ ku ∨ (responseHead g.status.display g.headers.entries ++ g.bs).length ≤ kd :=
  (C138_exact h ho errText self gs hA ku kd hu hd).trans
    ⟨fun hg g m => (hg g m).1, fun hg g m => ⟨hg g m, fun hh => by rw [hc g m] at hh; simp at hh⟩⟩

end

/-- Witness: a client that uploads and keeps its connection open without reading the answer, one that closes, and one that reads
three times. The first decides. -/
example (c c' : Cfg) (kd : Nat) (h : 1 ≤ kd) : let _ := asciiCase
    AllServed c (testHandler c' Sock) (fun _ => []) [helloEntry true, helloEntry false, helloEntry false]
      [⟨helloAsk true [], true, 2, .OK, .new, b!"hello from server"⟩, ⟨helloAsk false [], false, 0, .OK, .new, b!"hello from server"⟩,
        ⟨helloAsk false [1, 8192, 1], true, 0, .OK, .new, b!"hello from server"⟩] 2 kd ↔ 17 ≤ kd := by
  intro _
  have := C138_test (c := c) (c' := c') [(helloAsk true [], true, helloEntry true), (helloAsk false [], false, helloEntry false),
    (helloAsk false [1, 8192, 1], true, helloEntry false)] (fun _ => []) (by
      intro x hx
      simp only [List.mem_cons, List.not_mem_nil, or_false] at hx
      rcases hx with rfl | rfl | rfl
      · exact ⟨helloAsk_readable true _ (by unfold Positive; decide), rfl, rfl, fun _ => ⟨rfl, isText_ascii (by decide)⟩, rfl⟩
      · exact ⟨helloAsk_readable false _ (by unfold Positive; decide), rfl, rfl, fun h => by simp [helloAsk] at h, rfl⟩
      · exact ⟨helloAsk_readable false _ (by unfold Positive; decide), rfl, rfl, fun h => by simp [helloAsk] at h, rfl⟩)
    2 kd (by omega) h
  refine this.trans ⟨fun h => ?_, fun h => ?_⟩
  · have := h _ (List.mem_cons_self ..) rfl
    simpa [helloEntry, helloAsk] using this
  · intro x hx _
    simp only [List.mem_cons, List.not_mem_nil, or_false] at hx
    rcases hx with rfl | rfl | rfl <;> simp only [helloEntry, helloAsk, List.length_cons, List.length_nil] <;> omega

/-- Witness for `C138_closing`: an upload and a download, on a pipe that holds one byte. -/
example (c c' : Cfg) : let _ := asciiCase
    AllServed c (testHandler c' Sock) (fun _ => []) [helloEntry true, helloEntry false]
      [⟨helloAsk true [], false, 2, .OK, .new, b!"hello from server"⟩, ⟨helloAsk false [4, 4], false, 0, .OK, .new, b!"hello from server"⟩] 2 1 := by
  intro _
  refine (C138_closing _ testHandler_onlyReads _ _ _ ?_ (by simp) 2 1 (by omega) (by omega)).2 (by simp)
  obtain ⟨t1, t2⟩ := test_turn (c' := c') (helloAsk true []) (helloEntry true) [helloEntry false] rfl rfl
    (fun _ => ⟨rfl, isText_ascii (by decide)⟩) rfl
  obtain ⟨t3, t4⟩ := test_turn (c' := c') (helloAsk false [4, 4]) (helloEntry false) [] rfl rfl (fun h => by simp [helloAsk] at h) rfl
  exact .cons (helloAsk_readable true _ (by unfold Positive; decide)) (.reads rfl t1) (.inl rfl) (fromString_answers _ _) rfl rfl t2
    (.cons (helloAsk_readable false _ (by unfold Positive; decide)) (.get rfl t3) (.inl rfl) (fromString_answers _ _) rfl rfl t4 (.nil _))

/-- Witness: two uploads to a handler that does not look at them. The answers have to fit, or else the uploads. -/
example (c c' : Cfg) (ku kd : Nat) (hu : 1 ≤ ku) (hd : 1 ≤ kd) : let _ := asciiCase
    AllServed c (deafHandler c') (fun _ => []) ()
      [⟨bigAsk, false, 312, .OK, .new, b!"a page that is longer than the buffer"⟩,
        ⟨bigAsk, false, 312, .OK, .new, b!"a page that is longer than the buffer"⟩] ku kd ↔ 312 ≤ ku ∨ 56 ≤ kd := by
  intro _
  have hw : Treats (deafHandler c') bigAsk () (.ok (HttpResponse.new c' .OK (.B ⟨[.data b!"a page that is longer than the buffer"]⟩))) 312 := by
    have := Treats.ignores (h := deafHandler c') (q := bigAsk) (self := ())
      (reply := .ok (HttpResponse.new c' .OK (.B ⟨[.data b!"a page that is longer than the buffer"]⟩))) rfl (fun body _ => ⟨rfl, rfl⟩)
    rwa [show uploadSize (written bigAsk.writes) = 312 by decide +kernel] at this
  have ht : Turns (deafHandler c') bigAsk () (.ok (HttpResponse.new c' .OK (.B ⟨[.data b!"a page that is longer than the buffer"]⟩))) () :=
    ⟨(), fun _ _ => rfl, fun _ => rfl⟩
  refine (C138_closing _ (deafHandler_onlyReads c') _ _ _ (.cons bigAsk_readable hw (.inl rfl) (ok_answers _ _ _ rfl) rfl rfl ht
    (.cons bigAsk_readable hw (.inl rfl) (ok_answers _ _ _ rfl) rfl rfl ht (.nil _))) (by simp) ku kd hu hd).trans ?_
  have e : (responseHead HttpStatus.OK.display HttpHeaders.new.entries ++ b!"a page that is longer than the buffer").length = 56 := by
    decide +kernel
  simp only [List.mem_cons, List.not_mem_nil, or_false, forall_eq_or_imp, forall_eq, e, and_self]

end HttpIo
