import Verif.Spec.Reset
import Verif.Props.Crowd

/-! C139: answers that a reset can destroy. -/

namespace HttpIo
open Spec

section
variable {client server : Sock → Sock} {req resp : Bytes}

/-- If the server answers without the last `L` bytes of the request, which fit into their pipe unless the answer does, and the
client wants more of the answer than all but what the pipe holds, the server may be done before it has taken them, and before the
client has the answer. -/
theorem cutShort_run (hc : ClientShape client req resp) {L ku kd : Nat} (hs : ServerShape server req resp L)
    (hL : L ≤ req.length) (hsip : ∀ room, (∀ x ∈ room, 0 < x) → ∀ n,
      (server (.start req false (List.replicate (req.length - L) 1) false room)).waits ≠ some (.read n))
    {T : Nat} (hwant : ∀ fed room ended, (∀ x ∈ fed, 0 < x) → (∀ x ∈ room, 0 < x) →
      (client (.start resp true fed ended room)).waits = none → T ≤ fed.sum)
    (h1 : 1 ≤ L) (hu : 1 ≤ ku) (hd : 1 ≤ kd) (hr : 1 ≤ resp.length) (hT : 1 ≤ T) (hT2 : resp.length < T + kd)
    (hfit : L ≤ ku ∨ resp.length ≤ kd) :
    ∃ n x, Link.Run client server req resp ku kd n .init x ∧ CutShort client server req resp x := by
  have ones : ∀ i, ∀ x ∈ List.replicate i 1, 0 < x := fun i x hx => by rw [(List.mem_replicate.1 hx).2]; omega
  have sum : ∀ i, (List.replicate i 1).sum = i := fun i => by simp
  have more : ∀ i, List.replicate i 1 ++ [1] = List.replicate (i + 1) 1 := fun i => by rw [List.replicate_succ']
  have cwrite : ∀ i, i < req.length → ∃ buf, 1 ≤ buf.length ∧
      (client (.start resp true [] false (List.replicate i 1))).waits = some (.write buf) := by
    intro i hi
    obtain ⟨_, c1, c2, c3⟩ := hc [] (List.replicate i 1) false (by simp) (ones i)
    rcases hw : (client (.start resp true [] false (List.replicate i 1))).waits with _ | n | buf
    · have := c3 hw; rw [sum] at this; omega
    · have := (c2 n hw).2.1; rw [sum] at this; omega
    · exact ⟨buf, List.length_pos_iff.2 (c1 buf hw).1, rfl⟩
  have cread : ∀ j, j < T → j < resp.length → ∃ n, 1 ≤ n ∧
      (client (.start resp true (List.replicate j 1) false (List.replicate req.length 1))).waits = some (.read n) := by
    intro j hjT hj
    obtain ⟨_, c1, c2, c3⟩ := hc (List.replicate j 1) (List.replicate req.length 1) false (ones j) (ones _)
    rcases hw : (client (.start resp true (List.replicate j 1) false (List.replicate req.length 1))).waits with _ | n | buf
    · have := hwant _ _ _ (ones j) (ones _) hw; rw [sum] at this; omega
    · exact ⟨n, (c2 n hw).1, rfl⟩
    · have := c1 buf hw
      have h2 := List.length_pos_iff.2 this.1
      rw [sum] at this; omega
  have swrite : ∀ j, j < resp.length → ∃ buf, 1 ≤ buf.length ∧
      (server (.start req false (List.replicate (req.length - L) 1) false (List.replicate j 1))).waits = some (.write buf) := by
    intro j hj
    obtain ⟨_, _, s2, s3⟩ := hs (List.replicate (req.length - L) 1) (List.replicate j 1) (ones _) (ones j)
    rcases hw : (server (.start req false (List.replicate (req.length - L) 1) false (List.replicate j 1))).waits with _ | n | buf
    · have := (s3 hw).1; rw [sum] at this; omega
    · exact absurd hw (hsip _ (ones j) n)
    · exact ⟨buf, List.length_pos_iff.2 (s2 buf hw).1, rfl⟩
  -- the request, up to what the server needs
  have A : ∀ i, i ≤ req.length - L → ∃ n, Link.Run client server req resp ku kd n .init
      ⟨List.replicate i 1, [], false, List.replicate i 1, [], 0, 0⟩ := by
    intro i
    induction i with
    | zero => intro _; exact ⟨0, .refl _⟩
    | succ i ih =>
      intro hi
      obtain ⟨n, hn⟩ := ih (by omega)
      obtain ⟨buf, b1, b2⟩ := cwrite i (by omega)
      have r1 := Link.Run.step hn (.clientWrite (x := ⟨List.replicate i 1, [], false, List.replicate i 1, [], 0, 0⟩) 1 b2
        (by omega) b1 (by dsimp only; omega))
      dsimp only at r1
      obtain ⟨_, s1, s2, s3⟩ := hs (List.replicate i 1) [] (ones i) (by simp)
      rcases hw : (server (.start req false (List.replicate i 1) false [])).waits with _ | m | buf'
      · have := (s3 hw).2; rw [sum] at this; omega
      · have r2 := Link.Run.step r1 (.serverRead (x := ⟨List.replicate i 1 ++ [1], [], false, List.replicate i 1, [], 0 + 1, 0⟩) 1 hw
          (by omega) (s1 m hw).1 (by dsimp only; omega))
        dsimp only at r2
        rw [more] at r2
        exact ⟨_, r2⟩
      · have := (s2 buf' hw).2.2; rw [sum] at this; omega
  have sdone : (server (.start req false (List.replicate (req.length - L) 1) false (List.replicate resp.length 1))).waits = none := by
    obtain ⟨_, _, s2, _⟩ := hs (List.replicate (req.length - L) 1) (List.replicate resp.length 1) (ones _) (ones _)
    rcases hw : (server (.start req false (List.replicate (req.length - L) 1) false (List.replicate resp.length 1))).waits with _ | n | buf
    · rfl
    · exact absurd hw (hsip _ (ones _) n)
    · have := s2 buf hw
      have h2 := List.length_pos_iff.2 this.1
      rw [sum] at this; omega
  -- a part of the answer that fits into the pipe
  have write : ∀ sent i j p, p ≤ kd → j + p ≤ resp.length → (∃ n, Link.Run client server req resp ku kd n .init
        ⟨List.replicate sent 1, List.replicate j 1, false, List.replicate (req.length - L) 1, List.replicate j 1, i, 0⟩) →
      ∃ n, Link.Run client server req resp ku kd n .init
        ⟨List.replicate sent 1, List.replicate j 1, false, List.replicate (req.length - L) 1, List.replicate (j + p) 1, i, p⟩ := by
    intro sent i j p
    induction p with
    | zero => exact fun _ _ h => h
    | succ p ih =>
      intro hp hj h0
      obtain ⟨n, hn⟩ := ih (by omega) (by omega) h0
      obtain ⟨buf, b1, b2⟩ := swrite (j + p) (by omega)
      have r1 := Link.Run.step hn (.serverWrite (x := ⟨List.replicate sent 1, List.replicate j 1, false,
        List.replicate (req.length - L) 1, List.replicate (j + p) 1, i, p⟩) 1 b2 (by omega) b1 (by dsimp only; omega))
      dsimp only at r1
      rw [more] at r1
      exact ⟨_, r1⟩
  by_cases hfit' : L ≤ ku
  case neg =>
    obtain ⟨n, hn⟩ := write (req.length - L) 0 0 resp.length (by omega) (by omega) (A _ (Nat.le_refl _))
    rw [show 0 + resp.length = resp.length by omega] at hn
    refine ⟨n, _, hn, sdone, ?_, ?_, ?_⟩
    · dsimp only; rw [sum]; omega
    · obtain ⟨m, _, b2⟩ := cwrite (req.length - L) (by omega)
      show (client (.start resp true [] false (List.replicate (req.length - L) 1))).waits ≠ none
      rw [b2]; simp
    · dsimp only; rw [sum]; omega
  -- the rest of the request
  have B : ∀ i, i ≤ L → ∃ n, Link.Run client server req resp ku kd n .init
      ⟨List.replicate (req.length - L + i) 1, [], false, List.replicate (req.length - L) 1, [], i, 0⟩ := by
    intro i
    induction i with
    | zero => intro _; exact A _ (Nat.le_refl _)
    | succ i ih =>
      intro hi
      obtain ⟨n, hn⟩ := ih (by omega)
      obtain ⟨buf, b1, b2⟩ := cwrite (req.length - L + i) (by omega)
      have r1 := Link.Run.step hn (.clientWrite (x := ⟨List.replicate (req.length - L + i) 1, [], false,
        List.replicate (req.length - L) 1, [], i, 0⟩) 1 b2 (by omega) b1 (by dsimp only; omega))
      dsimp only at r1
      rw [more] at r1
      exact ⟨_, r1⟩
  have hfull : req.length - L + L = req.length := by omega
  -- the answer, byte by byte
  have C : ∀ j, j ≤ resp.length - kd → ∃ n, Link.Run client server req resp ku kd n .init
      ⟨List.replicate req.length 1, List.replicate j 1, false, List.replicate (req.length - L) 1, List.replicate j 1, L, 0⟩ := by
    intro j
    induction j with
    | zero =>
      intro _
      have := B L (Nat.le_refl _)
      rwa [hfull] at this
    | succ j ih =>
      intro hj
      obtain ⟨n, hn⟩ := write _ _ _ 1 hd (by omega) (ih (by omega))
      obtain ⟨m, b1, b2⟩ := cread j (by omega) (by omega)
      have r1 := Link.Run.step hn (.clientRead (x := ⟨List.replicate req.length 1, List.replicate j 1, false,
        List.replicate (req.length - L) 1, List.replicate (j + 1) 1, L, 1⟩) 1 b2 (by omega) b1 (by dsimp only; omega))
      dsimp only at r1
      rw [more] at r1
      exact ⟨_, r1⟩
  obtain ⟨n, hn⟩ := write _ _ _ (min kd resp.length) (by omega) (by omega) (C (resp.length - kd) (Nat.le_refl _))
  rw [show resp.length - kd + min kd resp.length = resp.length by omega] at hn
  refine ⟨n, _, hn, sdone, ?_, ?_, ?_⟩
  · dsimp only; rw [sum]; omega
  · obtain ⟨m, _, b2⟩ := cread (resp.length - kd) (by omega) (by omega)
    show (client (.start resp true (List.replicate (resp.length - kd) 1) false (List.replicate req.length 1))).waits ≠ none
    rw [b2]; simp
  · dsimp only; rw [sum]; omega

end

section
variable [CaseMap] {c c' : Cfg} {η ρ ε : Type} [LawfulReader ρ] [ZeroReader ρ]

/-- The answer to a GET is never cut short: when the server drops the connection nothing of the request is left. -/
theorem C139_get (q : Ask) (hq : q.Readable) (hput : q.put = false) (h : Handler c' η Sock ρ ε) (ho : OnlyReads h)
    (errText : Err → Bytes) (self : η) (reply : Reply ε (ServerResponse c' ρ)) (hw : RepliesAnyhow h q self reply)
    (r : ServerResponse c' ρ) (hr : AnswerIs h reply r) (bs : Bytes) (ha : Answers r bs) (ku kd : Nat) :
    NeverCutShort c q (serving h errText self) r.status r.headers bs ku kd := by
  obtain ⟨host, hhost⟩ := hq.host
  have hcs : ClientShape (fun s : Sock => (q.run c s).2) (asked q host) (responseHead r.status.display r.headers.entries ++ bs) :=
    fun fed room ended hf hr => client_shape q hq.toProper host hhost _ fed room ended hf hr
  have hss := server_shape_left q hq host hhost h self reply hw ho errText r hr bs ha 0 fun n hn => by
    rw [hn.1 hput]; exact Nat.le_refl _
  refine ⟨asked q host, asked_bytes q hq.toProper host hhost, fun n x hx => ?_⟩
  have hi := (linkInv_run hcs hss hx).1
  have hsx := hss _ _ hi.pos.2.2.1 hi.pos.2.2.2
  refine ⟨(hcs _ _ _ hi.pos.2.1 hi.pos.1).1, hsx.1, fun ⟨h1, h2, _⟩ => ?_⟩
  have := (hsx.2.2.2 h1).2
  omega

/-- The handler reads uploads to their end or does not look at them, what it leaves of the request fits into the pipe to the server
or the answer into the other, and the client reads so often that it may have to wait for what is in the pipe when the server is
done. Then an answer can be cut short exactly if something is left of the request, that is, exactly the answers to uploads. -/
theorem C139_exact (q : Ask) (hq : q.Readable) (h : Handler c' η Sock ρ ε) (ho : OnlyReads h) (errText : Err → Bytes)
    (self : η) (reply : Reply ε (ServerResponse c' ρ)) (left : Nat) (hw : Treats h q self reply left) (r : ServerResponse c' ρ)
    (hr : AnswerIs h reply r) (bs : Bytes) (ha : Answers r bs) (ku kd : Nat) (hu : 1 ≤ ku) (hd : 1 ≤ kd)
    (hsz : bs.length < kd + q.sizes.length)
    (hfit : left ≤ ku ∨ (responseHead r.status.display r.headers.entries ++ bs).length ≤ kd) :
    NeverCutShort c q (serving h errText self) r.status r.headers bs ku kd ↔ q.put = false := by
  refine ⟨fun hnever => ?_, fun hput => C139_get q hq hput h ho errText self reply hw.anyhow r hr bs ha ku kd⟩
  cases hput : q.put with
  | false => rfl
  | true =>
    exfalso
    have h1 : 1 ≤ left := by
      cases hw with
      | get hg _ => rw [hput] at hg; simp at hg
      | reads _ _ => omega
      | ignores _ _ => unfold uploadSize; omega
    obtain ⟨host, hhost⟩ := hq.host
    have e1 : utf8 "transfer-encoding" = b!"transfer-encoding" := by decide +kernel
    have e2 : utf8 "chunked" = b!"chunked" := by decide +kernel
    have e3 : utf8 "content-length" = b!"content-length" := by decide +kernel
    have hcs : ClientShape (fun s : Sock => (q.run c s).2) (asked q host) (responseHead r.status.display r.headers.entries ++ bs) :=
      fun fed room ended hf hr => client_shape q hq.toProper host hhost _ fed room ended hf hr
    have hss := server_shape_left q hq host hhost h self reply hw.anyhow ho errText r hr bs ha left fun n hn => by
      rw [hw.leaves n hn]; exact Nat.le_refl _
    obtain ⟨req, _, hall⟩ := hnever
    have hreq : req = asked q host := by
      rw [← (hall 0 .init (.refl _)).1]
      exact (hcs [] [] false (by simp) (by simp)).1
    subst hreq
    have hhead : 1 ≤ (responseHead r.status.display r.headers.entries).length := by unfold responseHead; simp; omega
    obtain ⟨n, x, hx, hcut⟩ := cutShort_run (ku := ku) (kd := kd) hcs hss (hw.left_le host)
      (fun room hroom n => server_sips q hq host hhost h self reply hw.anyhow ho errText r hr bs ha left hw.leaves h1
        (hw.left_le host) room hroom n)
      (T := (responseHead r.status.display r.headers.entries).length + bs.length - (bs.length - q.sizes.length))
      (fun fed room ended hf hm hwait => by
        have := (client_left (c := c) q hq host hhost r.status r.headers bs ha.sendable (by have := ha.plain; rwa [e1, e2] at this)
          (by have := ha.length; rwa [e3] at this) fed room ended hf hm).1 hwait
        omega) h1 hu hd (by rw [List.length_append]; omega) (by omega) (by rw [List.length_append]; omega) hfit
    exact (hall n x hx).2.2 hcut

/-- So with a handler that reads uploads to their end, a client that reads the whole answer, and a pipe to the server of two bytes
or more: exactly the answers to uploads can be cut short. -/
theorem C139_reading (q : Ask) (hq : q.Readable) (h : Handler c' η Sock ρ ε) (ho : OnlyReads h) (errText : Err → Bytes)
    (self : η) (reply : Reply ε (ServerResponse c' ρ)) (hw : Replies h q self reply) (r : ServerResponse c' ρ)
    (hr : AnswerIs h reply r) (bs : Bytes) (ha : Answers r bs) (hsz : bs.length ≤ q.sizes.length) (ku kd : Nat) (hu : 2 ≤ ku)
    (hd : 1 ≤ kd) :
    NeverCutShort c q (serving h errText self) r.status r.headers bs ku kd ↔ q.put = false :=
  C139_exact q hq h ho errText self reply _ (treats_of_replies hw) r hr bs ha ku kd (by omega) hd (by omega)
    (.inl (by cases q.put <;> simp <;> omega))

end

/-- Witness: the requests of `get_test` and `put_test` (`src/client.rs:342-369`, `:422-455`), with the body read. -/
example (c c' : Cfg) (put : Bool) (sizes : List Nat) (hs : Positive sizes) (hl : 17 ≤ sizes.length) (ku kd : Nat) (hu : 2 ≤ ku)
    (hd : 1 ≤ kd) : let _ := asciiCase
    NeverCutShort c (helloAsk put sizes) (serving (testHandler c' Sock) (fun _ => []) [helloEntry put]) .OK .new b!"hello from server"
      ku kd ↔ put = false := by
  intro _
  obtain ⟨t1, _⟩ := test_turn (c' := c') (helloAsk put sizes) (helloEntry put) [] rfl rfl
    (fun hp => by
      replace hp : put = true := hp
      subst hp
      exact ⟨rfl, isText_ascii (by decide)⟩) rfl
  exact C139_reading (helloAsk put sizes) (helloAsk_readable put sizes hs) _ testHandler_onlyReads _ _ _ t1 _ (.inl rfl) _
    (fromString_answers _ _) (by simpa [helloEntry, helloAsk] using hl) ku kd hu hd

/-- Witness for `C139_exact`: the crate's other test handler (`src/server.rs:365-400`), which does not look at uploads. The upload
of 28 bytes fits into its pipe, or the answer into the other; the client need not even read the body. -/
example (c c' : Cfg) (sizes : List Nat) (hs : Positive sizes) (ku kd : Nat) (hu : 1 ≤ ku) (hd : 5 ≤ kd) (hf : 28 ≤ ku ∨ 23 ≤ kd) :
    let _ := asciiCase
    ¬ NeverCutShort c (helloAsk true sizes) (serving (lendingHandler c' Sock) (fun _ => []) b!"data") .OK .new b!"data" ku kd := by
  intro _
  have e1 : uploadSize (written (helloAsk true sizes).writes) = 28 := (by decide +kernel : uploadSize [b!"hello from client"] = 28)
  have e2 : (responseHead HttpStatus.OK.display HttpHeaders.new.entries ++ b!"data").length = 23 := by decide +kernel
  have := C139_exact (c := c) (helloAsk true sizes) (helloAsk_readable true sizes hs) (lendingHandler c' Sock)
    ⟨fun _ _ _ => ⟨[], rfl⟩, fun _ _ _ => ⟨[], rfl⟩⟩ (fun _ => []) b!"data"
    (.ok (HttpResponse.new c' .OK (.B ⟨[.data b!"data"]⟩))) _ (.ignores rfl fun _ _ => ⟨rfl, rfl⟩) _ (.inl rfl) b!"data"
    (ok_answers c' ⟨[.data b!"data"]⟩ b!"data" rfl) ku kd hu (by omega) (by simp; omega)
    (by rw [e1]; exact hf.imp id fun h => Nat.le_trans (Nat.le_of_eq e2) h)
  exact fun h => absurd (this.1 h) (by simp [helloAsk])

end HttpIo
