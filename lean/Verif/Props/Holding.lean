import Verif.Lemmas.Holding
import Verif.Props.Pipes
import Verif.Props.TestServer

/-! C137: when a client that stops reading holds up the server. -/

namespace HttpIo
open Spec

section
variable [CaseMap] {c c' : Cfg} {η ρ ε : Type} [LawfulReader ρ] [ZeroReader ρ]

theorem holding_of_left (q : Ask) (hq : q.Readable) (h : Handler c' η Sock ρ ε) (ho : OnlyReads h) (errText : Err → Bytes)
    (self : η) (reply : Reply ε (ServerResponse c' ρ)) (hw : RepliesAnyhow h q self reply) (r : ServerResponse c' ρ)
    (hr : AnswerIs h reply r) (bs : Bytes) (ha : Answers r bs) (ku kd : Nat) (hu : 1 ≤ ku) (hd : 1 ≤ kd) (L : Nat)
    (hL : ∀ n, Leaves h q self reply n → n ≤ L)
    (hfit : L ≤ ku ∨ (responseHead r.status.display r.headers.entries ++ bs).length ≤ kd)
    (hrest : bs.length ≤ kd + q.sizes.length) :
    ServedHolding c q (serving h errText self) r.status r.headers bs ku kd := by
  obtain ⟨host, hhost⟩ := hq.host
  have e1 : utf8 "transfer-encoding" = b!"transfer-encoding" := by decide +kernel
  have e2 : utf8 "chunked" = b!"chunked" := by decide +kernel
  have e3 : utf8 "content-length" = b!"content-length" := by decide +kernel
  have hcs : ClientShape (fun s : Sock => (q.run c s).2) (asked q host) (responseHead r.status.display r.headers.entries ++ bs) :=
    fun fed room ended hf hr => client_shape q hq.toProper host hhost _ fed room ended hf hr
  have hss := server_shape_left q hq host hhost h self reply hw ho errText r hr bs ha L hL
  refine ⟨asked q host, asked_bytes q hq.toProper host hhost, fun n x hrun => ?_⟩
  obtain ⟨hi, hn⟩ := linkInv_run hcs hss (heldRun_run hrun)
  refine ⟨by omega, ?_, (hcs _ _ _ hi.pos.2.1 hi.pos.1).1, (hss _ _ hi.pos.2.2.1 hi.pos.2.2.2).1, ?_⟩
  · refine held_progress hcs hss hu hd hfit hi (heldRun_down hrun) fun hx => ?_
    have := (client_left q hq host hhost r.status r.headers bs ha.sendable (by have := ha.plain; rwa [e1, e2] at this)
      (by have := ha.length; rwa [e3] at this) x.clientFed x.clientRoom x.clientEnded hi.pos.2.1 hi.pos.1).1 hx
    rw [List.length_append]
    omega
  · obtain ⟨rs, h1, _⟩ := client_gets (c := c) q hq host hhost r.status r.headers bs ha.sendable
      (by have := ha.plain; rwa [e1, e2] at this) (by have := ha.length; rwa [e3] at this) x.clientFed x.clientRoom x.clientEnded
    exact ⟨rs, h1⟩

/-- Whatever the handler reads of an upload and however large the pipe to the server: if the exchange ends whatever the
scheduling, what the client may leave unread of the answer's body fits into the pipe to the client. -/
theorem C137_needed (q : Ask) (hq : q.Readable) (h : Handler c' η Sock ρ ε) (ho : OnlyReads h) (errText : Err → Bytes)
    (self : η) (reply : Reply ε (ServerResponse c' ρ)) (hw : RepliesAnyhow h q self reply) (r : ServerResponse c' ρ)
    (hr : AnswerIs h reply r) (bs : Bytes) (ha : Answers r bs) (ku kd : Nat)
    (hcomp : ServedHolding c q (serving h errText self) r.status r.headers bs ku kd) :
    bs.length ≤ kd + q.sizes.length := by
  obtain ⟨host, hhost⟩ := hq.host
  have e1 : utf8 "transfer-encoding" = b!"transfer-encoding" := by decide +kernel
  have e2 : utf8 "chunked" = b!"chunked" := by decide +kernel
  have e3 : utf8 "content-length" = b!"content-length" := by decide +kernel
  have hcs : ClientShape (fun s : Sock => (q.run c s).2) (asked q host) (responseHead r.status.display r.headers.entries ++ bs) :=
    fun fed room ended hf hr => client_shape q hq.toProper host hhost _ fed room ended hf hr
  have hss := server_shape_left q hq host hhost h self reply hw ho errText r hr bs ha (uploadSize (written q.writes)) fun n hn => by
    cases hput : q.put with
    | false => rw [hn.1 hput]; exact Nat.zero_le _
    | true => exact (hn.2 hput).1
  obtain ⟨req, _, hall⟩ := hcomp
  have hreq : req = asked q host := by
    rw [← (hall 0 .init (.refl _)).2.2.1]
    exact (hcs [] [] false (by simp) (by simp)).1
  subst hreq
  refine Classical.byContradiction fun hn => ?_
  obtain ⟨n, x, hrun, hdone, f, hf1, hf2⟩ := held_ones hcs hss (fun n x hx => (hall n x hx).2.1)
    (N := (responseHead r.status.display r.headers.entries).length + q.sizes.length) fun room ended hroom => by
      refine (client_left q hq host hhost r.status r.headers bs ha.sendable (by have := ha.plain; rwa [e1, e2] at this)
        (by have := ha.length; rwa [e3] at this) _ room ended ?_ hroom).2 (by omega) rfl
      intro x hx
      rw [(List.mem_replicate.1 hx).2]; omega
  have hi := (linkInv_run hcs hss (heldRun_run hrun)).1
  have h1 := (hss _ _ hi.pos.2.2.1 hi.pos.2.2.2).2.2.2 hdone.2
  have h2 := heldRun_down hrun
  have h3 := hi.downRoom
  rw [hf2] at h2
  simp only [List.sum_replicate_nat, Nat.mul_one] at h2
  have h4 := h1.1
  rw [List.length_append] at h4
  omega

/-- Whatever the handler reads of an upload: if that is so, and the exchange would end with a client that closes its connection,
because the request or the answer fits into its pipe (C120), it ends. -/
theorem C137_enough (q : Ask) (hq : q.Readable) (h : Handler c' η Sock ρ ε) (ho : OnlyReads h) (errText : Err → Bytes)
    (self : η) (reply : Reply ε (ServerResponse c' ρ)) (hw : RepliesAnyhow h q self reply) (r : ServerResponse c' ρ)
    (hr : AnswerIs h reply r) (bs : Bytes) (ha : Answers r bs) (ku kd : Nat) (hu : 1 ≤ ku) (hd : 1 ≤ kd)
    (hfit : q.put = false ∨ uploadSize (written q.writes) ≤ ku ∨
      (responseHead r.status.display r.headers.entries ++ bs).length ≤ kd)
    (hrest : bs.length ≤ kd + q.sizes.length) :
    ServedHolding c q (serving h errText self) r.status r.headers bs ku kd := by
  cases hput : q.put with
  | false =>
    exact holding_of_left q hq h ho errText self reply hw r hr bs ha ku kd hu hd 0
      (fun n hn => by rw [hn.1 hput]; exact Nat.le_refl _) (.inl (by omega)) hrest
  | true =>
    exact holding_of_left q hq h ho errText self reply hw r hr bs ha ku kd hu hd (uploadSize (written q.writes))
      (fun n hn => (hn.2 hput).1) (by rw [hput] at hfit; simpa using hfit) hrest

theorem Spec.Treats.anyhow {h : Handler c' η Sock ρ ε} {q : Ask} {self : η} {reply : Reply ε (ServerResponse c' ρ)} {n : Nat}
    (ht : Treats h q self reply n) : RepliesAnyhow h q self reply := by
  cases ht with
  | get _ hw => exact anyhow_of_replies hw
  | reads _ hw => exact anyhow_of_replies hw
  | ignores hput hw => exact anyhow_of_unread hput hw

theorem Spec.Treats.leaves {h : Handler c' η Sock ρ ε} {q : Ask} {self : η} {reply : Reply ε (ServerResponse c' ρ)} {n : Nat}
    (ht : Treats h q self reply n) (m : Nat) (hm : Leaves h q self reply m) : m = n := by
  cases ht with
  | get hput _ => exact hm.1 hput
  | reads hput hw => exact (hm.2 hput).2.2 hw
  | ignores hput hw => exact (hm.2 hput).2.1 hw

theorem Spec.Treats.left_le {h : Handler c' η Sock ρ ε} {q : Ask} {self : η} {reply : Reply ε (ServerResponse c' ρ)} {L : Nat}
    (hw : Treats h q self reply L) (host : HttpIo.Bytes) : L ≤ (asked q host).length := by
  cases hw with
  | get => exact Nat.zero_le _
  | reads hput _ =>
    have h1 := asked_length q host hput
    have h2 := uploadSize_ge (written q.writes)
    omega
  | ignores hput _ => exact asked_length q host hput

theorem treats_of_replies {h : Handler c' η Sock ρ ε} {q : Ask} {self : η} {reply : Reply ε (ServerResponse c' ρ)}
    (hw : Replies h q self reply) : Treats h q self reply (if q.put then 2 else 0) := by
  cases hput : q.put with
  | false => exact .get hput hw
  | true => exact .reads hput hw

/-- Whether the handler reads uploads to their end or does not look at them: the exchange ends, whatever the scheduling, exactly if
what is left unread of the request fits into the pipe to the server or the answer into the other, and the body of the answer is at
most as long as the pipe to the client holds, and a byte more for each of the client's reads. -/
theorem C137_exact (q : Ask) (hq : q.Readable) (h : Handler c' η Sock ρ ε) (ho : OnlyReads h) (errText : Err → Bytes)
    (self : η) (reply : Reply ε (ServerResponse c' ρ)) (left : Nat) (hw : Treats h q self reply left) (r : ServerResponse c' ρ)
    (hr : AnswerIs h reply r) (bs : Bytes) (ha : Answers r bs) (ku kd : Nat) (hu : 1 ≤ ku) (hd : 1 ≤ kd) :
    ServedHolding c q (serving h errText self) r.status r.headers bs ku kd ↔
      (left ≤ ku ∨ (responseHead r.status.display r.headers.entries ++ bs).length ≤ kd) ∧ bs.length ≤ kd + q.sizes.length := by
  constructor
  · intro hcomp
    refine ⟨Classical.byContradiction fun hn => ?_, C137_needed q hq h ho errText self reply hw.anyhow r hr bs ha ku kd hcomp⟩
    rw [not_or] at hn
    obtain ⟨host, hhost⟩ := hq.host
    have hcs : ClientShape (fun s : Sock => (q.run c s).2) (asked q host) (responseHead r.status.display r.headers.entries ++ bs) :=
      fun fed room ended hf hr => client_shape q hq.toProper host hhost _ fed room ended hf hr
    have hss := server_shape_left q hq host hhost h self reply hw.anyhow ho errText r hr bs ha left fun n hn => by
      rw [hw.leaves n hn]; exact Nat.le_refl _
    obtain ⟨req, _, hall⟩ := hcomp
    have hreq : req = asked q host := by
      rw [← (hall 0 .init (.refl _)).2.2.1]
      exact (hcs [] [] false (by simp) (by simp)).1
    subst hreq
    exact held_never hcs hss (fun n x hx => (hall n x hx).2.1) (by omega) (by omega) (hw.left_le host) fun room hroom n =>
      server_sips q hq host hhost h self reply hw.anyhow ho errText r hr bs ha left hw.leaves (by omega) (hw.left_le host) room hroom n
  · intro hfit
    exact holding_of_left q hq h ho errText self reply hw.anyhow r hr bs ha ku kd hu hd left
      (fun n hn => by rw [hw.leaves n hn]; exact Nat.le_refl _) hfit.1 hfit.2

/-- So with a handler that reads uploads to their end and a pipe to the server of two bytes or more. -/
theorem C137_reading (q : Ask) (hq : q.Readable) (h : Handler c' η Sock ρ ε) (ho : OnlyReads h) (errText : Err → Bytes)
    (self : η) (reply : Reply ε (ServerResponse c' ρ)) (hw : Replies h q self reply) (r : ServerResponse c' ρ)
    (hr : AnswerIs h reply r) (bs : Bytes) (ha : Answers r bs) (ku kd : Nat) (hu : 2 ≤ ku) (hd : 1 ≤ kd) :
    ServedHolding c q (serving h errText self) r.status r.headers bs ku kd ↔ bs.length ≤ kd + q.sizes.length :=
  (C137_exact q hq h ho errText self reply _ (treats_of_replies hw) r hr bs ha ku kd (by omega) hd).trans
    ⟨And.right, fun h => ⟨.inl (by split <;> omega), h⟩⟩

theorem fromString_answers (status : HttpStatus) (text : Bytes) :
    Answers (ServerResponse.fromString c' (ρ := ρ) status text) text := by
  obtain ⟨h1, _, h3, h4⟩ := fromString_body (c := c') (ρ := ρ) status text
  exact ⟨h1, by rw [h3]; exact ⟨.nil, by simp, by simp⟩, by rw [h3]; simp, by rw [h3]; simp, h4⟩

/-- The crate's own tests: the test server with a script of one entry that is the client's request and has no headers. It comes
to its end, whatever the scheduling, exactly if the scripted body fits, as above. -/
theorem C137_test (q : Ask) (hq : q.Readable) (e : ExpectedRequest) (errText : Err → Bytes)
    (hm : e.expectedMethod = if q.put then .Put else .Get)
    (hu : e.expectedUri = requestTarget { q.url with query := none })
    (hb : q.put = true → e.expectedBody = (written q.writes).flatten ∧ IsText e.expectedBody)
    (hh : e.responseHeaders.entries = []) (ku kd : Nat) (hku : 2 ≤ ku) (hkd : 1 ≤ kd) :
    ServedHolding c q (serving (testHandler c' Sock) errText [e]) e.responseStatus .new e.responseBody ku kd ↔
      e.responseBody.length ≤ kd + q.sizes.length := by
  refine C137_reading q hq (testHandler c' Sock) testHandler_onlyReads errText [e]
    (.ok (ServerResponse.fromString c' e.responseStatus e.responseBody)) ?_
    (ServerResponse.fromString c' e.responseStatus e.responseBody) (.inl rfl) e.responseBody (fromString_answers _ _) ku kd hku hkd
  unfold Replies
  dsimp only
  cases hput : q.put with
  | false =>
    rw [hput] at hm
    simp only [Bool.false_eq_true, if_false] at hm ⊢
    show (TestRequestHandler.get c' _ [e]).1 = _
    unfold TestRequestHandler.get
    dsimp only
    rw [if_neg (by rw [hm]; simp), if_neg (by rw [hu]; simp), hh]
    rfl
  | true =>
    rw [hput] at hm
    simp only [if_pos] at hm ⊢
    obtain ⟨hb1, hb2⟩ := hb hput
    intro body hy
    obtain ⟨k, b, f, g1, g2⟩ := collects (c := c') body _ (trace_of_yields hy)
    obtain ⟨sizes, k1, k2, k3⟩ := copy_calls c' body (Sink.mk [] 0 []) 0
    have hput : (testHandler c' Sock).put (requestTarget { q.url with query := none }) body [e] =
        (.ok (ServerResponse.fromString c' e.responseStatus e.responseBody), b, []) := by
      show TestRequestHandler.put _ body [e] = _
      unfold TestRequestHandler.put
      dsimp only
      rw [if_neg (by rw [hm]; simp), if_neg (by rw [hu]; simp), g1]
      dsimp only
      rw [if_neg (by rw [g2, ← hb1, (validUtf8_iff _).2 hb2]; simp), if_neg (by rw [g2, hb1]; simp)]
    rw [hput]
    rw [g1] at k1 k3
    exact ⟨rfl, sizes, k2, k3 k rfl, k1⟩

end

/-- `get_test` (`src/client.rs:342-369`). -/
def helloAsk (put : Bool) (sizes : List Nat) : Ask :=
  ⟨put, ⟨b!"http", some b!"h", none, b!"/", none, none, [], none⟩, if put then [.write b!"hello from client"] else [], sizes⟩

def helloEntry (put : Bool) : ExpectedRequest :=
  { expectedMethod := if put then .Put else .Get, expectedUri := b!"/", expectedBody := if put then b!"hello from client" else [],
    responseStatus := .OK, responseBody := b!"hello from server", responseHeaders := ⟨[]⟩ }

theorem helloAsk_readable (put : Bool) (sizes : List Nat) (hs : Positive sizes) : let _ := asciiCase; (helloAsk put sizes).Readable := by
  intro _
  refine plain_readable put b!"/" _ sizes ⟨by simp, isText_ascii (by decide), by decide, by decide, by unfold HasCrLf; decide⟩
    ?_ ?_ hs
  · cases put <;> simp [written]
  · rintro rfl; simp [written]

/-- Witness for `C137_test`, and so for the others: `get_test` and `put_test` (`src/client.rs:342-369`, `:422-455`), which read the
body after they have waited for the server. They come to their end exactly if the system's pipe holds 17 bytes. A client that has
read twice before gets along with 15. -/
example (c c' : Cfg) (put : Bool) (kd : Nat) (h : 1 ≤ kd) : let _ := asciiCase
    (ServedHolding c (helloAsk put []) (serving (testHandler c' Sock) (fun _ => []) [helloEntry put]) .OK .new b!"hello from server" 2 kd ↔
      17 ≤ kd) ∧
    (ServedHolding c (helloAsk put [1, 8192]) (serving (testHandler c' Sock) (fun _ => []) [helloEntry put]) .OK .new b!"hello from server"
      2 kd ↔ 15 ≤ kd) := by
  intro _
  have key : ∀ sizes, Positive sizes →
      (ServedHolding c (helloAsk put sizes) (serving (testHandler c' Sock) (fun _ => []) [helloEntry put]) .OK .new b!"hello from server"
        2 kd ↔ 17 ≤ kd + sizes.length) := by
    intro sizes hs
    refine C137_test (helloAsk put sizes) (helloAsk_readable put sizes hs) (helloEntry put) (fun _ => []) rfl
      rfl (fun hp => ?_) rfl 2 kd (by omega) h
    replace hp : put = true := hp
    subst hp
    exact ⟨rfl, isText_ascii (by decide)⟩
  refine ⟨?_, ?_⟩
  · have := key [] (by unfold Positive; decide)
    simpa using this
  · have := key [1, 8192] (by unfold Positive; decide)
    rw [this]
    simp only [List.length_cons, List.length_nil]
    omega

/-- Witness for `C137_exact`: an upload to a handler that does not look at it, and a client that reads the answer twice. -/
example (c c' : Cfg) (ku kd : Nat) (hu : 1 ≤ ku) (hd : 1 ≤ kd) : let _ := asciiCase
    ServedHolding c bigAsk (serving (deafHandler c') (fun _ => []) ()) .OK .new b!"a page that is longer than the buffer" ku kd ↔
      (312 ≤ ku ∨ 56 ≤ kd) ∧ 35 ≤ kd := by
  intro _
  have h := C137_exact (c := c) bigAsk bigAsk_readable (deafHandler c') (deafHandler_onlyReads c') (fun _ => []) ()
    (.ok (HttpResponse.new c' .OK (.B ⟨[.data b!"a page that is longer than the buffer"]⟩))) _ (.ignores rfl fun body _ => ⟨rfl, rfl⟩)
    (HttpResponse.new c' .OK (.B ⟨[.data b!"a page that is longer than the buffer"]⟩)) (.inl rfl)
    b!"a page that is longer than the buffer" (ok_answers _ _ _ rfl) ku kd hu hd
  refine h.trans ?_
  show (uploadSize (written bigAsk.writes) ≤ ku ∨
    (responseHead HttpStatus.OK.display [] ++ b!"a page that is longer than the buffer").length ≤ kd) ∧ _ ↔ _
  rw [show uploadSize (written bigAsk.writes) = 312 by decide +kernel,
    show (responseHead HttpStatus.OK.display [] ++ b!"a page that is longer than the buffer").length = 56 by decide +kernel]
  refine and_congr_right fun _ => ?_
  show 37 ≤ kd + 2 ↔ _
  omega

end HttpIo
