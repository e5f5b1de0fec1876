import Verif.Spec.Store
import Verif.Lemmas.Files
import Verif.Props.Files
import Verif.Props.Crowd

/-! One visit of a client to a server, and to the file server of the documentation. -/

namespace HttpIo
open Spec LawfulReader

theorem run_pos {client server : Sock → Sock} {req resp : Bytes} {ku kd n : Nat} {x y : Link}
    (h : Link.Run client server req resp ku kd n x y)
    (hx : (∀ k ∈ x.clientRoom, 0 < k) ∧ (∀ k ∈ x.clientFed, 0 < k) ∧ (∀ k ∈ x.serverFed, 0 < k) ∧ ∀ k ∈ x.serverRoom, 0 < k) :
    (∀ k ∈ y.clientRoom, 0 < k) ∧ (∀ k ∈ y.clientFed, 0 < k) ∧ (∀ k ∈ y.serverFed, 0 < k) ∧ ∀ k ∈ y.serverRoom, 0 < k := by
  induction h with
  | refl => exact hx
  | step _ hs ih =>
    obtain ⟨i1, i2, i3, i4⟩ := ih hx
    cases hs with
    | clientWrite k _ hk => exact ⟨pos_append i1 hk, i2, i3, i4⟩
    | clientRead k _ hk => exact ⟨i1, pos_append i2 hk, i3, i4⟩
    | clientClosed => exact ⟨i1, i2, i3, i4⟩
    | serverRead k _ hk => exact ⟨i1, i2, pos_append i3 hk, i4⟩
    | serverWrite k _ hk => exact ⟨i1, i2, i3, pos_append i4 hk⟩
    | dropUp => exact ⟨i1, i2, i3, i4⟩
    | dropDown => exact ⟨i1, i2, i3, i4⟩

theorem init_pos : (∀ k ∈ Link.init.clientRoom, 0 < k) ∧ (∀ k ∈ Link.init.clientFed, 0 < k) ∧
    (∀ k ∈ Link.init.serverFed, 0 < k) ∧ ∀ k ∈ Link.init.serverRoom, 0 < k := by
  simp [Link.init]

section
variable [CaseMap] {c c' : Cfg} {η ρ ε : Type} [LawfulReader ρ] [ZeroReader ρ]

/-- An exchange that completes can be brought to its end. -/
theorem finishes {q : Ask} {server : Sock → Sock} {status : HttpStatus} {headers : HttpHeaders} {bs : Bytes} {ku kd : Nat}
    (h : Completes c q server status headers bs ku kd) :
    ∃ req n x, Link.Run (fun s : Sock => (q.run c s).2) server req (responseHead status.display headers.entries ++ bs) ku kd n .init x ∧
      Done (fun s : Sock => (q.run c s).2) server req (responseHead status.display headers.entries ++ bs) x ∧
      (x.clientEnd (fun s : Sock => (q.run c s).2) (responseHead status.display headers.entries ++ bs)).out = req ∧
      (x.serverEnd server req).out = responseHead status.display headers.entries ++ bs := by
  obtain ⟨req, _, hall⟩ := h
  refine ⟨req, Classical.byContradiction fun hno => ?_⟩
  have hlong : ∀ n, ∃ x, Link.Run (fun s : Sock => (q.run c s).2) server req (responseHead status.display headers.entries ++ bs)
      ku kd n .init x := by
    intro n
    induction n with
    | zero => exact ⟨_, .refl _⟩
    | succ n ih =>
      obtain ⟨x, hx⟩ := ih
      refine Classical.byContradiction fun hn => ?_
      obtain ⟨_, h2, h3, h4, _⟩ := hall n x hx
      refine h2 ⟨fun hd => hno ⟨n, x, hx, hd, h3, h4⟩, fun y hy => hn ⟨y, hx.step hy⟩⟩
  obtain ⟨x, hx⟩ := hlong (2 * (req.length + (responseHead status.display headers.entries ++ bs).length) + 2)
  have := (hall _ x hx).1
  omega

/-- The client gets what the handler answers, and the request is `asked`. -/
theorem visit_asked {q : Ask} (hq : q.Readable) {server : Sock → Sock} {host req resp : Bytes} (hhost : q.url.host = some host)
    {ku kd n : Nat} {x : Link} (hrun : Link.Run (fun s => (q.run c s).2) server req resp ku kd n .init x)
    (hreq : (x.clientEnd (fun s => (q.run c s).2) resp).out = req) : req = asked q host := by
  obtain ⟨p1, p2, _, _⟩ := run_pos hrun init_pos
  rw [← hreq]
  exact (client_shape q hq.toProper host hhost resp x.clientFed x.clientRoom x.clientEnded p2 p1).1

theorem visit_gets {q : Ask} (hq : q.Readable) {h : Handler c' η Sock ρ ε} (ho : OnlyReads h) {errText : Err → Bytes} {self : η}
    {reply : Reply ε (ServerResponse c' ρ)} (hw : Replies h q self reply) {r : ServerResponse c' ρ} (hr : AnswerIs h reply r)
    {bs : Bytes} (ha : Answers r bs) {req resp : Bytes} {ku kd n : Nat} {x : Link}
    (hrun : Link.Run (fun s => (q.run c s).2) (serving h errText self) req resp ku kd n .init x)
    (hreq : (x.clientEnd (fun s => (q.run c s).2) resp).out = req)
    (hresp : (x.serverEnd (serving h errText self) req).out = resp) :
    ∃ rs, (q.run c (Sock.start resp true x.clientFed x.clientEnded x.clientRoom)).1 =
      .got (HttpStatus.fromCode r.status.toCode) r.headers rs ∧ (bs.length < q.sizes.length → ReadAll rs bs) := by
  obtain ⟨host, hhost⟩ := hq.host
  have e := visit_asked hq hhost hrun hreq
  obtain ⟨_, _, p3, p4⟩ := run_pos hrun init_pos
  have hs := (server_shape q hq host hhost h self reply hw ho errText r hr bs ha x.serverFed x.serverRoom p3 p4).1
  rw [← e] at hs
  have e' : resp = responseHead r.status.display r.headers.entries ++ bs := by rw [← hresp]; exact hs
  have e1 : utf8 "transfer-encoding" = b!"transfer-encoding" := by decide +kernel
  have e2 : utf8 "chunked" = b!"chunked" := by decide +kernel
  have e3 : utf8 "content-length" = b!"content-length" := by decide +kernel
  rw [e']
  exact client_gets q hq host hhost r.status r.headers bs ha.sendable (by have := ha.plain; rwa [e1, e2] at this)
      (by have := ha.length; rwa [e3] at this) _ _ _

/-- What the request does to the handler. -/
def Becomes (h : Handler c' η Sock ρ ε) (q : Ask) (self self' : η) : Prop :=
  let target := requestTarget { q.url with query := none }
  if q.put then ∀ body, Yields body (written q.writes).flatten → (h.put target body self).2.2 = self'
  else (h.get target self).2 = self'

theorem serveOne_becomes {h : Handler c' η Sock ρ ε} (hrel : ∀ body self, h.release body self = self) {q : Ask} (hq : q.Readable)
    {host : Bytes} (hhost : q.url.host = some host) {self self' : η} (ht : Becomes h q self self') (errText : Err → Bytes) (s : Sock)
    (hi : s.input = asked q host) (hc : s.closes = false) : (h.serveOne errText (.ok s) self).2.2 = self' := by
  suffices hin : (h.serveOneInner errText s self).2.2 = self' by
    unfold Handler.serveOne
    dsimp only
    revert hin
    rcases h.serveOneInner errText s self with ⟨r | r | _, s', self''⟩ <;> dsimp only <;> intro hin
    · rcases respond c' r s' with ⟨_ | _, b, s2⟩ <;> dsimp only <;> rw [hrel] <;> exact hin
    · rcases respond c' r s' with ⟨_ | _, b, s2⟩ <;> dsimp only <;> exact hin
    · exact hin
  obtain ⟨rq, s1, f1, f2, f3, f4, f5⟩ := server_request (c' := c') q hq host hhost s hi hc
  rw [serveOneInner_handled h errText self f1 f2, f3, f4]
  unfold Becomes at ht
  cases hput : q.put with
  | false =>
    rw [hput, if_neg (by simp)] at ht
    exact ht
  | true =>
    rw [hput, if_pos rfl] at ht
    exact ht rq.body (f5 hput)

/-- What a visit does to the handler. -/
theorem visit_becomes {h : Handler c' η Sock ρ ε} (hrel : ∀ body self, h.release body self = self) {q : Ask} (hq : q.Readable)
    {self self' : η} (ht : Becomes h q self self') {errText : Err → Bytes} {req resp : Bytes} {ku kd n : Nat} {x : Link}
    (hrun : Link.Run (fun s => (q.run c s).2) (serving h errText self) req resp ku kd n .init x)
    (hreq : (x.clientEnd (fun s => (q.run c s).2) resp).out = req) (fed room : List Nat) :
    (h.serveOne errText (.ok (Sock.start req false fed false room)) self).2.2 = self' := by
  obtain ⟨host, hhost⟩ := hq.host
  exact serveOne_becomes hrel hq hhost ht errText _ (visit_asked hq hhost hrun hreq) rfl

end

/-! ### The file server -/

theorem Spec.Storable.set {fs : Fs} {p q : List Bytes} (h : Storable fs q) (content : Bytes) : Storable (fs.set p content) q := by
  unfold Storable Fs.set at *
  by_cases e : q = p
  · rw [if_pos e]; exact .inr ⟨_, rfl⟩
  · rw [if_neg e]; exact h

theorem Spec.LeadsTo.set {fs : Fs} {R p p' : List Bytes} {q : Ask} (hp : Storable fs p) (h : LeadsTo fs R q p') (content : Bytes) :
    LeadsTo (fs.set p content) R q p' := by
  obtain ⟨h1, h2, ⟨cs, h3, h4⟩, h5⟩ := h
  exact ⟨h1, h2, ⟨cs, h3, h4.set hp⟩, h5.set content⟩

section
variable [CaseMap] {c c' : Cfg}

theorem get_leaves (root target : Bytes) (fs : Fs) : (FileHandler.get c' root target fs).2 = fs := by
  unfold FileHandler.get
  split <;> rfl

theorem file_becomes {fs : Fs} {root : Bytes} {R p : List Bytes} {q : Ask} (hR : RootAt fs root R) (hn : LeadsTo fs R q p)
    (errText : Err → Bytes) :
    Becomes (fileHandler c' Sock root errText) q fs (if q.put then fs.set p (written q.writes).flatten else fs) := by
  obtain ⟨_, h0, ⟨cs, ht, hl⟩, hp⟩ := hn
  unfold Becomes
  cases hput : q.put
  · simp only [Bool.false_eq_true, if_false]
    exact get_leaves ..
  · simp only [if_pos]
    intro body hy
    obtain ⟨b, hb⟩ := put_stores hR ht h0 hl hp body _ hy
    show (FileHandler.put root _ body fs).2.2 = _
    rw [hb]

theorem download_replies {fs : Fs} {root content : Bytes} {R cs p : List Bytes} (q : Ask) (hput : q.put = false)
    (hR : RootAt fs root R) (ht : TargetText (requestTarget { q.url with query := none }) cs)
    (h0 : (0 : UInt8) ∉ requestTarget { q.url with query := none }) (hl : Leads fs R cs p) (hp : fs p = some (.file content))
    (errText : Err → Bytes) :
    Replies (fileHandler c' Sock root errText) q fs (.ok (HttpResponse.new c' .OK (.B ⟨[.data content]⟩))) := by
  unfold Replies
  rw [hput]
  simp only [Bool.false_eq_true, if_false]
  show (FileHandler.get c' root _ fs).1 = _
  rw [get_opens hR ht h0 hl content hp]

theorem file_answers (content : Bytes) :
    Answers (HttpResponse.new c' .OK (.B ⟨[.data content]⟩) : ServerResponse c' Wire) content :=
  ok_answers c' ⟨[.data content]⟩ content (by show List.flatMap WireEv.events [.data content] = _; simp [WireEv.events])

end

end HttpIo
