import Verif.Props.Pipes
import Verif.Props.Breaks
import Verif.Props.Unread
import Verif.Lemmas.Marks
import Verif.Spec.Silent

/-! C104: slow clients. -/

namespace HttpIo
open Spec

section
variable [CaseMap] {c : Cfg} {η ρ ε : Type} [LawfulReader ρ] [ZeroReader ρ]

theorem sock_marks : ReadMarks fun s : Sock => s.ended = false → ∃ n, s.waits = some (.read n) ∨ ∃ buf, s.waits = some (.write buf) := by
  refine ⟨⟨fun s n hs he => ?_⟩, fun s n e herr he => ?_⟩
  · rw [(s.read_rest n).2.2] at he
    obtain ⟨m, h | ⟨buf, h⟩⟩ := hs he
    · exact ⟨m, .inl (s.read_waits n _ h)⟩
    · exact ⟨m, .inr ⟨buf, s.read_waits n _ h⟩⟩
  · rw [(s.read_rest n).2.2] at he
    have key : ∃ a, (s.wait (.read n)).waits = some a := by
      rw [Sock.wait_waits]
      cases s.waits with
      | none => exact ⟨.read n, by simp⟩
      | some a => exact ⟨a, by simp⟩
    have cases : ∀ x : Sock, (∃ a, x.waits = some a) →
        ∃ n, x.waits = some (.read n) ∨ ∃ buf, x.waits = some (.write buf) := by
      rintro x ⟨a, ha⟩
      cases a with
      | read k => exact ⟨k, .inl ha⟩
      | write buf => exact ⟨0, .inr ⟨buf, ha⟩⟩
    apply cases
    rw [Sock.read_def] at herr ⊢
    unfold Sock.readImpl at herr ⊢
    split at herr
    · simp at herr
    · rename_i hn
      rw [if_neg hn]
      split at herr
      · rename_i hi
        rw [if_pos hi]
        simp only [he, Bool.false_eq_true, if_false]
        dsimp only at herr
        split at herr
        · simp at herr
        · rename_i hc
          rw [if_neg hc]
          exact key
      · split at herr <;> simp at herr

/-- A server whose client has gone silent in the head of a request waits to read, whatever the handler: `serve_one` does
not return, and nothing has been written. -/
theorem C104_waits (h : Handler c η Sock ρ ε) (errText : Err → Bytes) (self : η) (s : Sock) (hs : Silent s) :
    ∃ d n, (h.serveOne errText (.ok s) self).2.1 = some d ∧ d.waits = some (.read n) ∧
      (h.serveOneInner errText s self).2.1.out = [] ∧ (h.serveOneInner errText s self).2.1.waits = some (.read n) := by
  obtain ⟨sent, part, fed, room, rfl, hpart, hsent⟩ := hs
  generalize hs0 : Sock.start (sent ++ part) false fed false room = s0
  have htr : trace s0 = sent.map .byte ++ (part.map .byte ++ [.fault Sock.hang]) := by
    rw [Sock.trace_eq, ← hs0]; simp [Sock.start]
  have hoff : BreaksOff c (part.map .byte ++ [.fault Sock.hang]) Sock.hang :=
    ⟨part, [.fault Sock.hang], delivers_map c _ _, hpart, .inl ⟨[], by simp [Retried, Sock.hang], [], rfl, by simp [Ended]⟩⟩
  have herr : (HttpRequest.deserialize c (BufReader.new c s0)).1 = .err Sock.hang := by
    apply C91_request
    rw [BufReader.trace_new, htr]
    rcases hsent with rfl | hb
    · exact .inl hoff
    · exact .inr ⟨sent, _, hb, delivers_map c _ _, hoff⟩
  have hmark := (sock_marks.bufReader (c := c)).request (c := c) herr
  have hk : ReadKept fun x : Sock => x.out = [] ∧ x.ended = false ∧ ∀ buf, x.waits ≠ some (.write buf) :=
    ⟨fun x n hx => ⟨by rw [(x.read_rest n).1]; exact hx.1, by rw [(x.read_rest n).2.2]; exact hx.2.1,
      fun buf hw => hx.2.2 buf (x.read_waits_write n buf hw)⟩⟩
  obtain ⟨k0, k1, k2⟩ := (hk.bufReader (c := c)).request (c := c) (s := BufReader.new c s0) (by
    rw [← hs0]; exact ⟨rfl, rfl, by simp [Sock.start, BufReader.new]⟩)
  rcases hp : HttpRequest.deserialize c (BufReader.new c s0) with ⟨_ | e | _, s1⟩ <;> rw [hp] at herr k0 k1 k2 hmark <;>
    simp only [Res.err.injEq, reduceCtorEq] at herr
  obtain ⟨n, hn⟩ : ∃ n, s1.inner.waits = some (.read n) := by
    rcases hmark with hm | hm
    · obtain ⟨n, hx | ⟨buf, hx⟩⟩ := hm k1
      · exact ⟨n, hx⟩
      · exact absurd hx (k2 buf)
    · simp [ParseErr, Sock.hang] at hm
  have hin := serveOneInner_err h errText self hp
  have hwk : Kept fun x : Sock => x.waits = some (.read n) :=
    ⟨fun x buf hx => x.write_waits buf _ hx, fun _ hx => hx,
      fun c x buf hx => defaultWriteAll_kept (Q := fun x : Sock => x.waits = some (.read n)) (fun x buf hx => x.write_waits buf _ hx) hx⟩
  have hresp : ∀ r : ServerResponse c ρ, (respond c r s1.inner).2.2.waits = some (.read n) := by
    intro r
    unfold respond HttpResponse.serialize
    have k1 := hwk.writePieces (c := c) (s := s1.inner) (ps := r.headPieces) hn
    rcases hq : writePieces c s1.inner r.headPieces with ⟨e | _, s2⟩ <;> rw [hq] at k1
    · exact k1
    · dsimp only
      have k2 := hwk.copy (c := c) (r := r.body) (n := 0) k1
      rcases hcp : copy c r.body s2 0 with ⟨e | _, b, s3⟩ <;> rw [hcp] at k2 <;> exact k2
  unfold Handler.serveOne
  dsimp only
  rw [hin]
  dsimp only
  have := hresp (ServerResponse.ofError c errText e)
  rcases hr : respond c (ServerResponse.ofError c errText e) s1.inner with ⟨_ | _, b, s2⟩ <;> rw [hr] at this <;>
    exact ⟨s2, n, rfl, this, k0, hn⟩

/-- The property is false for every handler: behind a silent client nobody is served, whoever it is. -/
theorem C104_behind_false (h : Handler c η Sock ρ ε) (errText : Err → Bytes) (self : η) (before after : List (Res Sock)) (s : Sock)
    (hs : Silent s) (k : Nat) (hk : before.length < k) :
    ¬ Reached (h.serveForever errText (before ++ .ok s :: after) self).1 k := by
  rintro ⟨h1, h2⟩
  induction before generalizing self k with
  | nil =>
    obtain ⟨d, n, w1, w2, _⟩ := C104_waits h errText self s hs
    obtain ⟨k, rfl⟩ : ∃ j, k = j + 1 := ⟨k - 1, by simp at hk; omega⟩
    rw [List.nil_append, Handler.serveForever] at h2
    rcases hx : h.serveOne errText (.ok s) self with ⟨r, s', self'⟩
    rw [hx] at h2 w1
    dsimp only at w1
    subst w1
    cases r <;> dsimp only at h2 <;> simp only [List.take_succ_cons, List.mem_cons, forall_eq_or_imp] at h2 <;>
      · have := h2.1.2 d rfl
        rw [w2] at this; simp at this
  | cons a before ih =>
    obtain ⟨k, rfl⟩ : ∃ j, k = j + 1 := ⟨k - 1, by simp at hk; omega⟩
    rw [List.cons_append, Handler.serveForever] at h1 h2
    rcases hx : h.serveOne errText a self with ⟨r, s', self'⟩
    rw [hx] at h1 h2
    cases r with
    | panic => simp at h1
    | ok _ =>
      dsimp only at h1 h2
      exact ih self' k (by simp at hk; omega) (by simpa using h1) (fun x hx => h2 x (by simp [hx]))
    | err _ =>
      dsimp only at h1 h2
      exact ih self' k (by simp at hk; omega) (by simpa using h1) (fun x hx => h2 x (by simp [hx]))

/-- One prompt client: `serve_one` returns. -/
theorem prompt_returned (h : Handler c η Sock ρ ε) (ho : OnlyReads h) (errText : Err → Bytes) (self : η) (s : Sock)
    (hs : Prompt h s) : Returned ((h.serveOne errText (.ok s) self).1, (h.serveOne errText (.ok s) self).2.1) := by
  obtain ⟨c', q, req, fed, room, hq, hreq, hfed, hroom, hlen, rfl, hall⟩ := hs
  obtain ⟨reply, r, bs, hw, hr, ha, hsz⟩ := hall self
  obtain ⟨host, hhost⟩ := hq.host
  have hout := (client_shape (c := c') q hq.toProper host hhost [] [] [] false (by simp) (by simp)).1
  rw [← hreq] at hout
  subst hout
  obtain ⟨h1, _, _⟩ := server_reads q hq host hhost h self reply hw errText
    (Sock.start (asked q host) false fed false room) rfl rfl
  obtain ⟨t, hd, he⟩ := ha.body
  obtain ⟨g1, s', g2, _⟩ := serve_succeeds (fun s n => (s.read_rest n).1) (sock_reliable c) (fun _ _ _ => trivial) h ho errText
    (Sock.start (asked q host) false fed false room) self trivial r (h1 r hr) ha.version bs t hd he
  obtain ⟨_, w1, w2, _⟩ := server_shape q hq host hhost h self reply hw ho errText r hr bs ha fed room hfed hroom
  refine ⟨by rw [g1]; simp, fun x hx => ?_⟩
  dsimp only at hx
  unfold serving at w1 w2
  rw [hx] at w1 w2
  dsimp only [Option.getD] at w1 w2
  rcases hwt : x.waits with _ | ⟨n⟩ | buf
  · rfl
  · have := (w1 n hwt).2; omega
  · obtain ⟨a, b, _⟩ := w2 buf hwt
    have := List.length_pos_iff.2 a
    omega

/-- A client that has sent its request but does not take all of the answer keeps `serve_one` waiting too, until it does. -/
theorem C104_untaken (h : Handler c η Sock ρ ε) (ho : OnlyReads h) (errText : Err → Bytes) (self : η) (c' : Cfg) (q : Ask)
    (hq : q.Readable) (req : Bytes) (hreq : req = (q.run c' (Sock.start [] true [] false [])).2.out) (fed room : List Nat)
    (hfed : ∀ x ∈ fed, 0 < x) (hroom : ∀ x ∈ room, 0 < x) (reply : Reply ε (ServerResponse c ρ)) (r : ServerResponse c ρ)
    (bs : Bytes) (hw : Replies h q self reply) (hr : AnswerIs h reply r) (ha : Answers r bs)
    (hsz : room.sum < (responseHead r.status.display r.headers.entries ++ bs).length) :
    let x := h.serveOne errText (.ok (Sock.start req false fed false room)) self
    ¬ Returned (x.1, x.2.1) := by
  intro x hx
  obtain ⟨host, hhost⟩ := hq.host
  have hout := (client_shape (c := c') q hq.toProper host hhost [] [] [] false (by simp) (by simp)).1
  rw [← hreq] at hout
  subst hout
  obtain ⟨h1, _, _⟩ := server_reads q hq host hhost h self reply hw errText
    (Sock.start (asked q host) false fed false room) rfl rfl
  obtain ⟨t, hd, he⟩ := ha.body
  obtain ⟨_, s', g2, _⟩ := serve_succeeds (fun s n => (s.read_rest n).1) (sock_reliable c) (fun _ _ _ => trivial) h ho errText
    (Sock.start (asked q host) false fed false room) self trivial r (h1 r hr) ha.version bs t hd he
  obtain ⟨_, _, _, w3⟩ := server_shape q hq host hhost h self reply hw ho errText r hr bs ha fed room hfed hroom
  unfold serving at w3
  rw [g2] at w3
  have := (w3 (hx.2 s' g2)).1
  omega

/-- If the clients before it have sent their requests and take the answers, a connection is reached. (Calls of `accept`
may have failed.) -/
theorem C104_reached_partial (h : Handler c η Sock ρ ε) (ho : OnlyReads h) (errText : Err → Bytes) (self : η)
    (before after : List (Res Sock)) (s : Res Sock) (hb : ∀ a ∈ before, (∃ e, a = .err e) ∨ ∃ x, a = .ok x ∧ Prompt h x) :
    Reached (h.serveForever errText (before ++ s :: after) self).1 before.length := by
  induction before generalizing self with
  | nil =>
    refine ⟨?_, by simp⟩
    rw [List.nil_append, Handler.serveForever]
    rcases h.serveOne errText s self with ⟨_ | _ | _, s', self'⟩ <;> simp
  | cons a before ih =>
    have hret : Returned ((h.serveOne errText a self).1, (h.serveOne errText a self).2.1) := by
      rcases hb a (by simp) with ⟨e, rfl⟩ | ⟨x, rfl, hx⟩
      · exact ⟨by simp [Handler.serveOne], by simp [Handler.serveOne]⟩
      · exact prompt_returned h ho errText self x hx
    rw [List.cons_append, Handler.serveForever]
    rcases hx : h.serveOne errText a self with ⟨r, s', self'⟩
    rw [hx] at hret
    obtain ⟨i1, i2⟩ := ih self' fun a ha => hb a (by simp [ha])
    cases r with
    | panic => exact absurd rfl hret.1
    | ok _ =>
      dsimp only
      refine ⟨by simpa using i1, fun x hx => ?_⟩
      rw [List.length_cons, List.take_succ_cons, List.mem_cons] at hx
      rcases hx with rfl | hx
      · exact hret
      · exact i2 x hx
    | err _ =>
      dsimp only
      refine ⟨by simpa using i1, fun x hx => ?_⟩
      rw [List.length_cons, List.take_succ_cons, List.mem_cons] at hx
      rcases hx with rfl | hx
      · exact hret
      · exact i2 x hx

end

/-- A silent client: connected, and it has sent nothing but the beginning of a method. -/
example : let _ := asciiCase
    Silent (Sock.start b!"GE" false [2] false []) ∧ Silent (Sock.start [] false [] false [3]) := by
  intro _
  exact ⟨⟨[], b!"GE", [2], [], rfl, by unfold HasCrLf; decide, .inl rfl⟩, ⟨[], [], [], [3], rfl, by unfold HasCrLf; decide, .inl rfl⟩⟩

/-- A prompt client: it uploads a byte, in two portions, and takes the answer. -/
example (c c' : Cfg) : let _ := asciiCase
    let q : Ask := ⟨true, ⟨b!"http", some b!"h", none, b!"/b", none, none, [], none⟩, [.write b!"x"], [10]⟩
    OnlyReads (drain c Sock) ∧
      Prompt (drain c Sock) (Sock.start (q.run c' (Sock.start [] true [] false [])).2.out false [60, 50] false [19]) := by
  intro _ q
  refine ⟨⟨fun uri body self => ?_, fun uri body self => ?_⟩, c', q, _, [60, 50], [19], ?_, rfl, by decide, by decide, ?_, rfl, fun self =>
    ⟨.ok (HttpResponse.new c .OK (.B ⟨[]⟩)), HttpResponse.new c .OK (.B ⟨[]⟩), [], ?_, .inl rfl, ok_answers _ _ _ rfl, ?_⟩⟩
  · obtain ⟨sizes, g1, _⟩ := copy_calls c body (Sink.mk [] 0 []) 0
    exact ⟨sizes, g1⟩
  · obtain ⟨sizes, g1, _⟩ := copy_calls c body (Sink.mk [] 0 []) 0
    exact ⟨sizes, g1⟩
  · exact plain_readable true b!"/b" _ _
      ⟨by simp, isText_ascii (by decide), by decide, by decide, by unfold HasCrLf; decide⟩ (by decide) (by simp) (by unfold Positive; decide)
  · have : ∀ b : Bool, (q.run ⟨b⟩ (Sock.start [] true [] false [])).2.out.length ≤ 110 := by decide +kernel
    exact this c'.std
  · unfold Replies
    dsimp only
    rw [if_pos (show q.put = true from rfl)]
    intro body hy
    obtain ⟨⟨sizes, h1, h2, h3⟩, _⟩ := drain_readsToEnd c Sock (requestTarget { q.url with query := none }) body self _ hy
    exact ⟨rfl, sizes, h1, h2, h3⟩
  · show (responseHead HttpStatus.OK.display [] ++ []).length ≤ 19
    decide +kernel

end HttpIo
