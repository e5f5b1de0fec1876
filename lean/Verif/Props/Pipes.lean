import Verif.Lemmas.Leftover
import Verif.Props.Files

/-! C100: a client and a server that run at the same time, connected by pipes of bounded size. -/

namespace HttpIo
open Spec

section
variable [CaseMap] {c c' : Cfg}

theorem asked_bytes (q : Ask) (hq : q.Proper) (host : Bytes) (hhost : q.url.host = some host) : q.Bytes (asked q host) := by
  refine ⟨host, hhost, ?_⟩
  unfold asked
  cases q.put with
  | false => simp
  | true =>
    simp only [if_pos]
    obtain ⟨chs, h1, h2⟩ := chunksFor (written q.writes) hq.small
    refine ⟨chs, h1, ?_⟩
    rw [h2, show utf8 "0" = b!"0" by decide +kernel, chunkedBytes]
    simp

/-- A client and a server, connected by pipes of which the one to the server holds at least two bytes, never wait for each
other for ever if the handler reads the body of an upload to its end: the exchange ends, whatever the scheduling, and the
client gets the handler's answer. -/
theorem C100_completes_partial {η ρ ε : Type} [LawfulReader ρ] [ZeroReader ρ] (q : Ask) (hq : q.Readable)
    (h : Handler c' η Sock ρ ε) (ho : OnlyReads h) (errText : Err → Bytes) (self : η) (reply : Reply ε (ServerResponse c' ρ))
    (hw : Replies h q self reply) (r : ServerResponse c' ρ) (hr : AnswerIs h reply r) (bs : Bytes) (ha : Answers r bs)
    (ku kd : Nat) (hu : 2 ≤ ku) (hd : 1 ≤ kd) :
    Completes c q (serving h errText self) r.status r.headers bs ku kd := by
  obtain ⟨host, hhost⟩ := hq.host
  have e1 : utf8 "transfer-encoding" = b!"transfer-encoding" := by decide +kernel
  have e2 : utf8 "chunked" = b!"chunked" := by decide +kernel
  have e3 : utf8 "content-length" = b!"content-length" := by decide +kernel
  have hcs : ClientShape (fun s : Sock => (q.run c s).2) (asked q host) (responseHead r.status.display r.headers.entries ++ bs) :=
    fun fed room ended hf hr => client_shape q hq.toProper host hhost _ fed room ended hf hr
  have hss : ServerShape (serving h errText self) (asked q host) (responseHead r.status.display r.headers.entries ++ bs) 2 :=
    fun fed room hf hm => server_shape q hq host hhost h self reply hw ho errText r hr bs ha fed room hf hm
  refine ⟨asked q host, asked_bytes q hq.toProper host hhost, fun n x hrun => ?_⟩
  obtain ⟨hi, hn⟩ := linkInv_run hcs hss hrun
  refine ⟨by omega, fun hst => ?_, (hcs _ _ _ hi.pos.2.1 hi.pos.1).1, (hss _ _ hi.pos.2.2.1 hi.pos.2.2.2).1,
    client_gets q hq host hhost r.status r.headers bs ha.sendable (by have := ha.plain; rwa [e1, e2] at this)
      (by have := ha.length; rwa [e3] at this) _ _ _⟩
  rcases linkInv_progress hcs hss (by omega) hd (.inl hu) hi with hx | ⟨y, hx⟩
  · exact hst.1 hx
  · exact hst.2 y hx

theorem asked_length (q : Ask) (host : Bytes) (hput : q.put = true) : uploadSize (written q.writes) ≤ (asked q host).length := by
  rw [← upload_length]
  unfold asked
  rw [hput, if_pos rfl]
  simp only [List.length_append]
  omega

section
variable {η ρ ε : Type} [LawfulReader ρ] [ZeroReader ρ]

theorem completes_of_left (q : Ask) (hq : q.Readable) (h : Handler c' η Sock ρ ε) (ho : OnlyReads h) (errText : Err → Bytes)
    (self : η) (reply : Reply ε (ServerResponse c' ρ)) (hw : RepliesAnyhow h q self reply) (r : ServerResponse c' ρ)
    (hr : AnswerIs h reply r) (bs : Bytes) (ha : Answers r bs) (ku kd : Nat) (hu : 1 ≤ ku) (hd : 1 ≤ kd) (L : Nat)
    (hL : ∀ n, Leaves h q self reply n → n ≤ L)
    (hfit : L ≤ ku ∨ (responseHead r.status.display r.headers.entries ++ bs).length ≤ kd) :
    Completes c q (serving h errText self) r.status r.headers bs ku kd := by
  obtain ⟨host, hhost⟩ := hq.host
  have e1 : utf8 "transfer-encoding" = b!"transfer-encoding" := by decide +kernel
  have e2 : utf8 "chunked" = b!"chunked" := by decide +kernel
  have e3 : utf8 "content-length" = b!"content-length" := by decide +kernel
  have hcs : ClientShape (fun s : Sock => (q.run c s).2) (asked q host) (responseHead r.status.display r.headers.entries ++ bs) :=
    fun fed room ended hf hr => client_shape q hq.toProper host hhost _ fed room ended hf hr
  have hss := server_shape_left q hq host hhost h self reply hw ho errText r hr bs ha L hL
  refine ⟨asked q host, asked_bytes q hq.toProper host hhost, fun n x hrun => ?_⟩
  obtain ⟨hi, hn⟩ := linkInv_run hcs hss hrun
  refine ⟨by omega, fun hst => ?_, (hcs _ _ _ hi.pos.2.1 hi.pos.1).1, (hss _ _ hi.pos.2.2.1 hi.pos.2.2.2).1,
    client_gets q hq host hhost r.status r.headers bs ha.sendable (by have := ha.plain; rwa [e1, e2] at this)
      (by have := ha.length; rwa [e3] at this) _ _ _⟩
  rcases linkInv_progress hcs hss hu hd hfit hi with hx | ⟨y, hx⟩
  · exact hst.1 hx
  · exact hst.2 y hx

theorem not_completes_of_left (q : Ask) (hq : q.Readable) (h : Handler c' η Sock ρ ε) (ho : OnlyReads h) (errText : Err → Bytes)
    (self : η) (reply : Reply ε (ServerResponse c' ρ)) (hw : RepliesAnyhow h q self reply) (r : ServerResponse c' ρ)
    (hr : AnswerIs h reply r) (bs : Bytes) (ha : Answers r bs) (ku kd : Nat) (hu : 1 ≤ ku) (hput : q.put = true) (L : Nat)
    (hL : ∀ n, Leaves h q self reply n → n = L) (hle : L ≤ uploadSize (written q.writes)) (hku : ku < L)
    (hkd : kd < (responseHead r.status.display r.headers.entries ++ bs).length) :
    ¬ Completes c q (serving h errText self) r.status r.headers bs ku kd := by
  obtain ⟨host, hhost⟩ := hq.host
  have hcs : ClientShape (fun s : Sock => (q.run c s).2) (asked q host) (responseHead r.status.display r.headers.entries ++ bs) :=
    fun fed room ended hf hr => client_shape q hq.toProper host hhost _ fed room ended hf hr
  have hss := server_shape_left q hq host hhost h self reply hw ho errText r hr bs ha L fun n hn => by rw [hL n hn]; exact Nat.le_refl _
  have hlen := asked_length q host hput
  rintro ⟨req, _, hall⟩
  have hreq : req = asked q host := by
    rw [← (hall 0 .init (.refl _)).2.2.1]
    exact (hcs [] [] false (by simp) (by simp)).1
  subst hreq
  obtain ⟨n, x, h1, h2⟩ := deadlock hcs hss (by omega)
    (fun room hroom n => server_sips q hq host hhost h self reply hw ho errText r hr bs ha L hL (by omega) (by omega) room hroom n)
    hu hku hkd
  exact (hall n x h1).2.1 h2

theorem anyhow_of_replies {h : Handler c' η Sock ρ ε} {q : Ask} {self : η} {reply : Reply ε (ServerResponse c' ρ)}
    (hw : Replies h q self reply) : RepliesAnyhow h q self reply := by
  unfold Replies at hw
  unfold RepliesAnyhow
  dsimp only at hw ⊢
  split at hw
  · rename_i hp
    rw [if_pos hp]
    intro body hy
    obtain ⟨h1, sizes, h2, _, h3⟩ := hw body hy
    exact ⟨h1, sizes, h2, h3⟩
  · rename_i hp
    rw [if_neg hp]
    exact hw

theorem anyhow_of_unread {h : Handler c' η Sock ρ ε} {q : Ask} {self : η} {reply : Reply ε (ServerResponse c' ρ)}
    (hput : q.put = true) (hw : RepliesUnread h q self reply) : RepliesAnyhow h q self reply := by
  unfold RepliesAnyhow
  rw [hput, if_pos rfl]
  intro body hy
  exact ⟨(hw body hy).1, [], by intro n hn; simp at hn, (hw body hy).2⟩

theorem uploadSize_ge (bufs : List Bytes) : 5 ≤ uploadSize bufs := by unfold uploadSize; omega

/-- Whatever a handler reads of an upload: if the answer fits into the pipe to the client, or the body of the upload into the
other, the exchange ends, whatever the scheduling. So it does for a download. -/
theorem C120_fits (q : Ask) (hq : q.Readable) (h : Handler c' η Sock ρ ε) (ho : OnlyReads h) (errText : Err → Bytes)
    (self : η) (reply : Reply ε (ServerResponse c' ρ)) (hw : RepliesAnyhow h q self reply) (r : ServerResponse c' ρ)
    (hr : AnswerIs h reply r) (bs : Bytes) (ha : Answers r bs) (ku kd : Nat) (hu : 1 ≤ ku) (hd : 1 ≤ kd)
    (hfit : q.put = false ∨ uploadSize (written q.writes) ≤ ku ∨
      (responseHead r.status.display r.headers.entries ++ bs).length ≤ kd) :
    Completes c q (serving h errText self) r.status r.headers bs ku kd := by
  cases hput : q.put with
  | false =>
    exact completes_of_left q hq h ho errText self reply hw r hr bs ha ku kd hu hd 0
      (fun n hn => by rw [hn.1 hput]; exact Nat.le_refl _) (.inl (by omega))
  | true =>
    exact completes_of_left q hq h ho errText self reply hw r hr bs ha ku kd hu hd (uploadSize (written q.writes))
      (fun n hn => (hn.2 hput).1) (by rw [hput] at hfit; simpa using hfit)

/-- A handler that does not look at an upload: the exchange ends, whatever the scheduling, exactly if the answer fits into the
pipe to the client or the body of the upload into the other. -/
theorem C120_unread (q : Ask) (hq : q.Readable) (hput : q.put = true) (h : Handler c' η Sock ρ ε) (ho : OnlyReads h)
    (errText : Err → Bytes) (self : η) (reply : Reply ε (ServerResponse c' ρ)) (hw : RepliesUnread h q self reply)
    (r : ServerResponse c' ρ) (hr : AnswerIs h reply r) (bs : Bytes) (ha : Answers r bs) (ku kd : Nat) (hu : 1 ≤ ku) (hd : 1 ≤ kd) :
    Completes c q (serving h errText self) r.status r.headers bs ku kd ↔
      uploadSize (written q.writes) ≤ ku ∨ (responseHead r.status.display r.headers.entries ++ bs).length ≤ kd := by
  constructor
  · intro hcomp
    refine Classical.byContradiction fun hn => ?_
    rw [not_or] at hn
    exact not_completes_of_left q hq h ho errText self reply (anyhow_of_unread hput hw) r hr bs ha ku kd hu hput
      (uploadSize (written q.writes)) (fun n hn => (hn.2 hput).2.1 hw) (Nat.le_refl _) (by omega) (by omega) hcomp
  · intro hfit
    exact C120_fits q hq h ho errText self reply (anyhow_of_unread hput hw) r hr bs ha ku kd hu hd (.inr hfit)

/-- A handler that reads an upload to its end leaves the last end of line: the exchange ends, whatever the scheduling, exactly
if that fits into the pipe to the server, or the answer into the other. -/
theorem C120_read (q : Ask) (hq : q.Readable) (hput : q.put = true) (h : Handler c' η Sock ρ ε) (ho : OnlyReads h)
    (errText : Err → Bytes) (self : η) (reply : Reply ε (ServerResponse c' ρ)) (hw : Replies h q self reply)
    (r : ServerResponse c' ρ) (hr : AnswerIs h reply r) (bs : Bytes) (ha : Answers r bs) (ku kd : Nat) (hu : 1 ≤ ku) (hd : 1 ≤ kd) :
    Completes c q (serving h errText self) r.status r.headers bs ku kd ↔
      2 ≤ ku ∨ (responseHead r.status.display r.headers.entries ++ bs).length ≤ kd := by
  constructor
  · intro hcomp
    refine Classical.byContradiction fun hn => ?_
    rw [not_or] at hn
    have := uploadSize_ge (written q.writes)
    exact not_completes_of_left q hq h ho errText self reply (anyhow_of_replies hw) r hr bs ha ku kd hu hput
      2 (fun n hn => (hn.2 hput).2.2 hw) (by omega) (by omega) (by omega) hcomp
  · intro hfit
    exact completes_of_left q hq h ho errText self reply (anyhow_of_replies hw) r hr bs ha ku kd hu hd 2
      (fun n hn => by rw [(hn.2 hput).2.2 hw]; exact Nat.le_refl _) hfit

end

theorem ok_answers (c : Cfg) (w : Wire) (bs : Bytes) (hw : trace w = bs.map .byte) :
    Answers (HttpResponse.new c .OK (.B w) : ServerResponse c Wire) bs := by
  refine ⟨rfl, ⟨.nil, by simp [HttpResponse.new, HttpHeaders.new], by simp [HttpResponse.new, HttpHeaders.new]⟩, by simp [HttpResponse.new, HttpHeaders.new],
    by simp [HttpResponse.new, HttpHeaders.new], [], ?_, by simp [Ended]⟩
  have : trace (HttpResponse.new c .OK (.B w) : ServerResponse c Wire).body = bs.map .byte := by
    show trace (BufReader.new c (StreamEither.B w : Boxed Wire)) = _
    rw [BufReader.trace_new]
    exact hw
  rw [this]
  simpa using delivers_map c bs []

/-- The file server of the documentation reads an upload to its end. -/
theorem upload_replies {fs : Fs} {root : Bytes} {R cs p : List Bytes} (q : Ask) (hput : q.put = true)
    (hR : RootAt fs root R) (ht : TargetText (requestTarget { q.url with query := none }) cs)
    (h0 : (0 : UInt8) ∉ requestTarget { q.url with query := none }) (hl : Leads fs R cs p) (hp : Storable fs p)
    (errText : Err → Bytes) :
    Replies (fileHandler c' Sock root errText) q fs (.ok (HttpResponse.new c' .OK (.B ⟨[]⟩))) := by
  unfold Replies
  rw [hput]
  simp only [if_pos]
  intro body hy
  show (FileHandler.put root _ body fs).1 = _ ∧ _
  obtain ⟨b, hb⟩ := put_stores hR ht h0 hl hp body _ hy
  refine ⟨by rw [hb], ?_⟩
  show ∃ sizes, _ ∧ _ ∧ (FileHandler.put root _ body fs).2.1 = _
  unfold FileHandler.put FileHandler.putOn at hb ⊢
  rcases hcr : fs.create (joinPath root (trimSlashes (requestTarget { q.url with query := none }))) with e | ⟨p', fs'⟩ <;>
    rw [hcr] at hb <;> dsimp only at hb ⊢
  · simp at hb
  · obtain ⟨sizes, g1, g2, g3⟩ := copy_calls c' body (Sink.mk [] 0 []) 0
    rcases hc : copy c' body (Sink.mk [] 0 []) 0 with ⟨e | k, b', f⟩ <;> rw [hc] at hb g1 g3 <;> dsimp only at hb ⊢
    · simp at hb
    · exact ⟨sizes, g2, g3 k rfl, g1⟩

/-- An upload to it, over such pipes. -/
theorem C100_upload {fs : Fs} {root : Bytes} {R cs p : List Bytes} (q : Ask) (hq : q.Readable) (hput : q.put = true)
    (hR : RootAt fs root R) (ht : TargetText (requestTarget { q.url with query := none }) cs)
    (h0 : (0 : UInt8) ∉ requestTarget { q.url with query := none }) (hl : Leads fs R cs p) (hp : Storable fs p)
    (errText : Err → Bytes) (ku kd : Nat) (hu : 2 ≤ ku) (hd : 1 ≤ kd) :
    Completes c q (serving (fileHandler c' Sock root errText) errText fs) .OK .new [] ku kd :=
  C100_completes_partial q hq (fileHandler c' Sock root errText) (fileHandler_onlyReads root errText) errText fs
    (.ok (HttpResponse.new c' .OK (.B ⟨[]⟩))) (upload_replies q hput hR ht h0 hl hp errText)
    (HttpResponse.new c' .OK (.B ⟨[]⟩)) (.inl rfl) [] (ok_answers c' ⟨[]⟩ [] rfl) ku kd hu hd

/-- A download from it. -/
theorem C100_download {fs : Fs} {root content : Bytes} {R cs p : List Bytes} (q : Ask) (hq : q.Readable) (hput : q.put = false)
    (hR : RootAt fs root R) (ht : TargetText (requestTarget { q.url with query := none }) cs)
    (h0 : (0 : UInt8) ∉ requestTarget { q.url with query := none }) (hl : Leads fs R cs p) (hp : fs p = some (.file content))
    (errText : Err → Bytes) (ku kd : Nat) (hu : 2 ≤ ku) (hd : 1 ≤ kd) :
    Completes c q (serving (fileHandler c' Sock root errText) errText fs) .OK .new content ku kd := by
  refine C100_completes_partial q hq (fileHandler c' Sock root errText) (fileHandler_onlyReads root errText) errText fs
    (.ok (HttpResponse.new c' .OK (.B ⟨[.data content]⟩))) ?_ (HttpResponse.new c' .OK (.B ⟨[.data content]⟩)) (.inl rfl) content
    (ok_answers c' ⟨[.data content]⟩ content (by show List.flatMap WireEv.events [.data content] = _; simp [WireEv.events]))
    ku kd hu hd
  unfold Replies
  rw [hput]
  simp only [Bool.false_eq_true, if_false]
  show (FileHandler.get c' root _ fs).1 = _
  rw [get_opens hR ht h0 hl content hp]

end

theorem plain_readable (put : Bool) (path : Bytes) (writes : List WCall) (sizes : List Nat) (hp : SendableTarget path)
    (hw : ∀ buf ∈ written writes, buf.length < 2 ^ 64) (hb : put = false → written writes = []) (hs : Positive sizes) :
    Ask.Readable ⟨put, ⟨b!"http", some b!"h", none, path, none, none, [], none⟩, writes, sizes⟩ := by
  refine ⟨⟨by rw [← isAscii_iff]; show isAscii b!"http" = true; decide, .inl ?_, ⟨_, rfl⟩, hw, hb⟩, ?_, ?_, hs⟩
  · unfold PlainHttp; rw [show utf8 "http" = b!"http" by decide +kernel]; exact sameText_refl _
  · intro host h
    replace h : some b!"h" = some host := h
    simp only [Option.some.injEq] at h
    subst h
    exact ⟨isText_ascii (by decide), by unfold HasCrLf; decide⟩
  · unfold requestTarget
    dsimp only
    rw [if_neg hp.1, List.append_nil]
    exact hp

/-- Witness for `C100_upload` and `C100_completes_partial`: an upload in two writes with a flush in between, to a file that
does not exist yet. -/
example (c c' : Cfg) : let _ := asciiCase
    Completes c ⟨true, ⟨b!"http", some b!"h", none, b!"/b", none, none, [], none⟩, [.write b!"new ", .flush, .write b!"text"], [10, 10]⟩
      (serving (fileHandler c' Sock b!"/srv" fun _ => []) (fun _ => []) sampleFs) .OK .new [] 2 1 := by
  intro _
  exact C100_upload (cs := [b!"b"]) (p := [b!"srv", b!"b"]) _ (plain_readable true b!"/b" _ _
    ⟨by simp, isText_ascii (by decide), by decide, by decide, by unfold HasCrLf; decide⟩ (by decide) (by simp) (by unfold Positive; decide))
    rfl sampleFs_root ⟨1, b!"b", rfl, by decide, splitPath_iff.2 (by decide)⟩ (by decide) (walk_iff.1 (by rfl)) (.inl (by decide)) _ 2 1
    (by omega) (by omega)

/-- Witness for `C100_download`. -/
example (c c' : Cfg) : let _ := asciiCase
    Completes c ⟨false, ⟨b!"http", some b!"h", none, b!"/a", none, none, [], none⟩, [], [2, 2, 2, 2]⟩
      (serving (fileHandler c' Sock b!"/srv" fun _ => []) (fun _ => []) sampleFs) .OK .new b!"old" 2 1 := by
  intro _
  exact C100_download (cs := [b!"a"]) (p := [b!"srv", b!"a"]) _ (plain_readable false b!"/a" _ _
    ⟨by simp, isText_ascii (by decide), by decide, by decide, by unfold HasCrLf; decide⟩ (by simp [written]) (by simp [written])
    (by unfold Positive; decide))
    rfl sampleFs_root ⟨1, b!"a", rfl, by decide, splitPath_iff.2 (by decide)⟩ (by decide) (walk_iff.1 (by rfl)) (by decide) _ 2 1
    (by omega) (by omega)

/-- Witness for `C120_read`: over a pipe that holds a single byte the upload above may come to a halt at the last end of line. -/
example (c c' : Cfg) : let _ := asciiCase
    ¬ Completes c ⟨true, ⟨b!"http", some b!"h", none, b!"/b", none, none, [], none⟩, [.write b!"new ", .flush, .write b!"text"], [10, 10]⟩
      (serving (fileHandler c' Sock b!"/srv" fun _ => []) (fun _ => []) sampleFs) .OK .new [] 1 18 := by
  intro _
  have hp := plain_readable true b!"/b" [.write b!"new ", .flush, .write b!"text"] [10, 10]
    ⟨by simp, isText_ascii (by decide), by decide, by decide, by unfold HasCrLf; decide⟩ (by decide) (by simp) (by unfold Positive; decide)
  have h := C120_read (c := c) _ hp rfl (fileHandler c' Sock b!"/srv" fun _ => []) (fileHandler_onlyReads _ _) (fun _ => []) sampleFs
    (.ok (HttpResponse.new c' .OK (.B ⟨[]⟩)))
    (upload_replies (cs := [b!"b"]) (p := [b!"srv", b!"b"]) _ rfl sampleFs_root ⟨1, b!"b", rfl, by decide, splitPath_iff.2 (by decide)⟩
      (by decide) (walk_iff.1 (by rfl)) (.inl (by decide)) _)
    (HttpResponse.new c' .OK (.B ⟨[]⟩)) (.inl rfl) [] (ok_answers c' ⟨[]⟩ [] rfl) 1 18 (by omega) (by omega)
  replace h := h.trans (show _ ∨ (responseHead HttpStatus.OK.display [] ++ ([] : Bytes)).length ≤ 18 ↔ _ from Iff.rfl)
  rw [show (responseHead HttpStatus.OK.display [] ++ ([] : Bytes)).length = 19 by decide +kernel] at h
  intro hc
  have := h.1 hc
  omega

/-! ### A deadlock -/

section
variable (client server : Sock → Sock) (req resp : Bytes) (ku kd : Nat)

/-- A step that moves bytes. -/
inductive Move where
  | clientWrite (k : Nat)
  | clientRead (k : Nat)
  | serverRead (k : Nat)
  | serverWrite (k : Nat)

/-- The step, if it is possible. -/
def Link.move (x : Link) : Move → Option Link
  | .clientWrite k =>
    match (x.clientEnd client resp).waits with
    | some (.write buf) =>
      if 0 < k ∧ k ≤ buf.length ∧ x.up + k ≤ ku then some { x with clientRoom := x.clientRoom ++ [k], up := x.up + k } else none
    | _ => none
  | .clientRead k =>
    match (x.clientEnd client resp).waits with
    | some (.read n) =>
      if 0 < k ∧ k ≤ n ∧ k ≤ x.down then some { x with clientFed := x.clientFed ++ [k], down := x.down - k } else none
    | _ => none
  | .serverRead k =>
    match (x.serverEnd server req).waits with
    | some (.read n) =>
      if 0 < k ∧ k ≤ n ∧ k ≤ x.up then some { x with serverFed := x.serverFed ++ [k], up := x.up - k } else none
    | _ => none
  | .serverWrite k =>
    match (x.serverEnd server req).waits with
    | some (.write buf) =>
      if 0 < k ∧ k ≤ buf.length ∧ x.down + k ≤ kd then some { x with serverRoom := x.serverRoom ++ [k], down := x.down + k }
      else none
    | _ => none

variable {client server req resp ku kd}

theorem Link.move_step {x y : Link} {m : Move} (h : x.move client server req resp ku kd m = some y) :
    Link.Step client server req resp ku kd x y := by
  cases m <;> unfold Link.move at h <;> dsimp only at h <;> split at h <;> first | (exfalso; simp at h; done) | skip
  all_goals
    rename_i hw
    split at h
    · rename_i hk
      simp only [Option.some.injEq] at h
      rw [← h]
      first
        | exact .clientWrite _ hw hk.1 hk.2.1 hk.2.2
        | exact .clientRead _ hw hk.1 hk.2.1 hk.2.2
        | exact .serverRead _ hw hk.1 hk.2.1 hk.2.2
        | exact .serverWrite _ hw hk.1 hk.2.1 hk.2.2
    · simp at h

variable (client server req resp ku kd) in
/-- Several of them. -/
def Link.moves (x : Link) : List Move → Option Link
  | [] => some x
  | m :: ms =>
    match x.move client server req resp ku kd m with
    | some y => y.moves ms
    | none => none

theorem Link.moves_run {ms : List Move} {m : Nat} {x0 x y : Link} (h : Link.Run client server req resp ku kd m x0 x)
    (hm : x.moves client server req resp ku kd ms = some y) : ∃ k, Link.Run client server req resp ku kd k x0 y := by
  induction ms generalizing m x with
  | nil =>
    simp only [Link.moves, Option.some.injEq] at hm
    exact ⟨m, hm ▸ h⟩
  | cons a ms ih =>
    unfold Link.moves at hm
    split at hm
    · rename_i hg
      exact ih (.step h (Link.move_step hg)) hm
    · simp at hm

/-- Found by such steps. -/
theorem stuck_found (ms : List Move)
    (h : (match Link.moves client server req resp ku kd .init ms with
      | some x =>
        decide (x.up = ku ∧ x.down = kd) &&
          (match (x.clientEnd client resp).waits with | some (.write _) => true | _ => false) &&
          (match (x.serverEnd server req).waits with | some (.write _) => true | _ => false)
      | none => false) = true) :
    ∃ n x, Link.Run client server req resp ku kd n .init x ∧ Stuck client server req resp ku kd x := by
  rcases hm : Link.moves client server req resp ku kd .init ms with _ | x <;> rw [hm] at h <;> dsimp only at h
  · simp at h
  · simp only [Bool.and_eq_true, decide_eq_true_eq] at h
    obtain ⟨n, hn⟩ := Link.moves_run (.refl Link.init) hm
    obtain ⟨⟨⟨hu, hd⟩, hc⟩, hs⟩ := h
    split at hc
    · split at hs
      · exact ⟨n, x, hn, stuck_of_full (by assumption) (by assumption) hu hd⟩
      · simp at hs
    · simp at hc

end

/-- Answers every PUT with a page, without reading the body. -/
def deafHandler (c : Cfg) [CaseMap] : Handler c Unit Sock Wire Err :=
  { Handler.defaults c Unit Sock Wire Err (fun _ => ServerResponse.fromString c .InternalServerError []) with
    put := fun _ body self => (.ok (HttpResponse.new c .OK (.B ⟨[.data b!"a page that is longer than the buffer"]⟩)), body, self) }

/-- An upload. -/
def bigAsk : Ask := ⟨true, ⟨b!"http", some b!"h", none, b!"/", none, none, [], none⟩, [.write (List.replicate 300 97)], [100, 100]⟩

theorem deafHandler_onlyReads [CaseMap] (c : Cfg) : OnlyReads (deafHandler c) := ⟨fun _ _ _ => ⟨[], rfl⟩, fun _ _ _ => ⟨[], rfl⟩⟩

/-- Its bytes. -/
def bigBytes : Bytes :=
  b!"PUT / HTTP/1.1\r\naccept: */*\r\nhost: h\r\ntransfer-encoding: chunked\r\nuser-agent: http_io\r\n\r\n" ++
    (b!"12c\r\n" ++ (List.replicate 300 97 ++ b!"\r\n0\r\n\r\n"))

theorem bigAsk_readable : bigAsk.Readable := by
  refine plain_readable true b!"/" _ _ ⟨by simp, isText_ascii (by decide), by decide, by decide, by unfold HasCrLf; decide⟩
    ?_ (fun h => absurd h (by decide)) ?_
  · intro buf h
    replace h : buf ∈ [List.replicate 300 97] := h
    rw [List.mem_singleton.1 h, List.length_replicate]
    omega
  · intro n hn
    simp only [List.mem_cons, List.not_mem_nil, or_false] at hn
    omega

/-- Witness for `C120_unread` and `C120_fits`: 300 bytes in one write, and a page of 37 bytes. -/
example (c c' : Cfg) (ku kd : Nat) (hu : 1 ≤ ku) (hd : 1 ≤ kd) : let _ := asciiCase
    Completes c bigAsk (serving (deafHandler c') (fun _ => []) ()) .OK .new b!"a page that is longer than the buffer" ku kd ↔
      312 ≤ ku ∨ 56 ≤ kd := by
  intro _
  have h := C120_unread (c := c) bigAsk bigAsk_readable rfl (deafHandler c') (deafHandler_onlyReads c') (fun _ => []) ()
    (.ok (HttpResponse.new c' .OK (.B ⟨[.data b!"a page that is longer than the buffer"]⟩)))
    (fun body _ => ⟨rfl, rfl⟩)
    (HttpResponse.new c' .OK (.B ⟨[.data b!"a page that is longer than the buffer"]⟩)) (.inl rfl)
    b!"a page that is longer than the buffer" (ok_answers _ _ _ rfl) ku kd hu hd
  refine h.trans ?_
  show uploadSize (written bigAsk.writes) ≤ ku ∨
    (responseHead HttpStatus.OK.display [] ++ b!"a page that is longer than the buffer").length ≤ kd ↔ _
  rw [show uploadSize (written bigAsk.writes) = 312 by decide +kernel,
    show (responseHead HttpStatus.OK.display [] ++ b!"a page that is longer than the buffer").length = 56 by decide +kernel]

/-- A handler that answers without reading the upload: the client waits for room to write and so does the server. -/
theorem C100_any_handler_false : let _ := asciiCase
    ¬ ∀ (c c' : Cfg) (q : Ask) (h : Handler c' Unit Sock Wire Err) (errText : Err → Bytes) (r : ServerResponse c' Wire)
      (bs : Bytes) (ku kd : Nat), q.Readable → q.put = true → OnlyReads h →
      (∀ body, (h.put (requestTarget { q.url with query := none }) body ()).1 = .ok r) → Answers r bs → 2 ≤ ku → 1 ≤ kd →
      Completes c q (serving h errText ()) r.status r.headers bs ku kd := by
  intro _ hall
  have := hall ⟨true⟩ ⟨true⟩ bigAsk (deafHandler ⟨true⟩) (fun _ => [])
    (HttpResponse.new ⟨true⟩ .OK (.B ⟨[.data b!"a page that is longer than the buffer"]⟩)) b!"a page that is longer than the buffer"
    128 8 bigAsk_readable rfl (deafHandler_onlyReads _) (fun _ => rfl) (ok_answers _ _ _ rfl) (by omega) (by omega)
  obtain ⟨req, _, h⟩ := this
  have hreq := (h 0 .init (.refl _)).2.2.1
  rw [show (Link.init.clientEnd (fun s : Sock => (bigAsk.run ⟨true⟩ s).2) (responseHead _ _ ++ b!"a page that is longer than the buffer")).out =
    bigBytes by decide +kernel] at hreq
  subst hreq
  obtain ⟨n, x, h1, h2⟩ := stuck_found (client := fun s : Sock => (bigAsk.run ⟨true⟩ s).2)
    (server := serving (deafHandler ⟨true⟩) (fun _ => []) ())
    (req := bigBytes) (resp := b!"HTTP/1.1 200 OK\r\n\r\na page that is longer than the buffer") (ku := 128) (kd := 8)
    [.clientWrite 128, .serverRead 128, .clientWrite 128, .serverWrite 5, .serverWrite 1, .serverWrite 1, .serverWrite 1]
    (by decide +kernel)
  rw [show b!"HTTP/1.1 200 OK\r\n\r\na page that is longer than the buffer" =
    responseHead HttpStatus.OK.display [] ++ b!"a page that is longer than the buffer" by decide +kernel] at h1 h2
  exact (h n x h1).2.1 h2

end HttpIo
