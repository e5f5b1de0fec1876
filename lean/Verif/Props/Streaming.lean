import Verif.Props.Cut
import Verif.Props.CutUpload
import Verif.Props.Breaks
import Verif.Props.Conventions

/-! C167: data is passed on as it comes. -/

namespace HttpIo
open Spec

theorem chunksFor_data {chs : List Chunk} {bufs : List Bytes} (h : ChunksFor chs bufs) : chunkedData chs = bufs.flatten := by
  rw [chunkedData, h.2]
  clear h
  induction bufs with
  | nil => rfl
  | cons b bufs ih => by_cases hb : b = [] <;> simp_all

theorem new_framing_chunked {c : Cfg} {ρ : Type} {enc : Option Bytes} {n : Option Nat} {u : ρ}
    (h : framing (HttpBody.new c enc n u) = .chunked) : enc = some b!"chunked" := by
  unfold HttpBody.new at h
  by_cases he : enc = some b!"chunked"
  · exact he
  · rw [if_neg he] at h; cases n <;> simp [framing] at h

section
variable [CaseMap] {c : Cfg} {σ τ ρ : Type} [LawfulWriter σ] [LawfulReader ρ] [ZeroReader ρ]

/-- A client has sent the head of a chunked request, written some data and flushed it. A server that has got what is then
on the wire, and nothing more (it would get the error `e` instead of more), has the request, and its handler gets all of
the data before it has to wait for more, whatever the sizes of its reads. -/
theorem C167_upload (c' : Cfg) (r : HttpRequest c τ) (hv : r.version = ⟨1, 1⟩) (ht : SendableTarget r.uri)
    (hh : SendableHeaders r.headers.entries) (hl : LengthOk r.headers.entries)
    (hm : Carries r.method) (hte : (utf8 "transfer-encoding", utf8 "chunked") ∈ r.headers.entries) (s : σ) (hs : sent s = [])
    (o o1 o2 : OutgoingRequest c σ) (h : r.serialize (BufWriter.new c s) = .ok o) (cs : List WCall)
    (hlen : ∀ buf ∈ written cs, buf.length < 2 ^ 64) (hp : perform o cs = (true, o1)) (hf : flush o1 = (.ok (), o2)) :
    ∃ b2, o2 = .WithBody b2 ∧ ∀ (u : ρ) (e : Err) (rest : List Ev), ¬ Retried c' e →
      trace u = (wire b2.socket).map .byte ++ .fault e :: rest →
      ∃ q u', HttpRequest.deserialize c' u = (.ok q, u') ∧ q.method = r.method ∧ q.uri = r.uri ∧ q.headers = r.headers ∧
        FailsAfter q.body (written cs).flatten (if c'.std then .io (.other 0) else e) := by
  obtain ⟨b, rfl⟩ := (C18_serialized r s hv o h).2.2 hm
  rw [perform_withBody] at hp
  rcases hp' : perform b cs with ⟨ok, b1⟩
  rw [hp'] at hp
  simp only [Prod.mk.injEq] at hp
  obtain ⟨rfl, rfl⟩ := hp
  rcases hf' : flush b1 with ⟨res, b2⟩
  have hf2 : flush (OutgoingRequest.WithBody b1) = (res, .WithBody b2) := by
    show OutgoingRequest.flushImpl _ = _
    have : b1.flushImpl = (res, b2) := hf'
    unfold OutgoingRequest.flushImpl
    dsimp only
    rw [this]
  rw [hf2] at hf
  simp only [Prod.mk.injEq] at hf
  obtain ⟨rfl, rfl⟩ := hf
  refine ⟨b2, rfl, fun u e rest he hu => ?_⟩
  obtain ⟨chs, h1, h2⟩ := C22_flush b b1 b2 cs hlen hp' hf'
  have h3 := (C18_serialized r s hv _ h).1
  have h4 : sent b.socket = requestHead r.method r.uri r.headers.entries := by
    rw [show outgoingSent (.WithBody b : OutgoingRequest c σ) = sent b.socket from rfl, hs] at h3
    simpa using h3
  rw [h2, h4, List.map_append, List.append_assoc] at hu
  obtain ⟨q, u', k1, k2, k3, _, k5, k6, _, k8⟩ := C18_roundtrip c' u r.method r.uri r.headers _ ht hh hl (by
    rw [hu]; exact delivers_map c' _ _)
  refine ⟨q, u', k1, k2, k3, k5, ?_⟩
  have e1 : utf8 "transfer-encoding" = b!"transfer-encoding" := by decide +kernel
  have e2 : utf8 "chunked" = b!"chunked" := by decide +kernel
  rw [e1, e2] at hte
  obtain ⟨_, enc, len, hb⟩ := request_under k1
  have hfr := framedBy_unique hh.1 k6 (.chunked hte)
  rw [hb] at hfr ⊢
  rw [new_framing_chunked hfr, ← chunksFor_data h1]
  exact C92_size_partial c' len u' chs [] e rest (fun ch hch => (h1.1 ch hch).1) (by unfold HasCrLf; decide) he
    (by rw [k8]; simp)

end

section
variable [CaseMap] {c : Cfg} {η σ ρ κ ε : Type} [LawfulReader σ] [ZeroReader σ] [LawfulWriter σ] [LawfulReader ρ] [ZeroReader ρ]
  [LawfulReader κ] [ZeroReader κ]

/-- Full statement: what the body of a response has given can be read by the client before more of it is there. What
holds: it can if the connection keeps nothing back. The body has given `bs`, and for what comes next it would fail with
`e`; the connection would give the client the error `e'` for what comes next. The client has the response, and gets all
of `bs` before it has to wait. -/
theorem C167_download_partial {P : σ → Prop} (hra : ReadsApart σ) (hrel : Reliable c P) (hkept : ∀ s n, P s → P (read s n).2)
    (hw : ∀ s, P s → wire s = sent s) (h : Handler c η σ ρ ε) (ho : OnlyReads h) (errText : Err → Bytes) (s : σ) (self : η)
    (hs : P s) (hs0 : sent s = []) (r : ServerResponse c ρ)
    (hi : (h.serveOneInner errText s self).1 = .ok r ∨ (h.serveOneInner errText s self).1 = .err r)
    (hv : r.version = ⟨1, 1⟩) (hh : SendableHeaders r.headers.entries) (hl : LengthOk r.headers.entries)
    (hnc : (utf8 "transfer-encoding", utf8 "chunked") ∉ r.headers.entries)
    (bs : Bytes) (t' t'' : List Ev) (e : Err) (hd : Delivers c (trace r.body) bs t') (hf : Fails c t' e t'')
    (hlong : ∀ v N, (utf8 "content-length", v) ∈ r.headers.entries → LengthText v N → bs.length < N) :
    ∃ d, (h.serveOne errText (.ok s) self).2.1 = some d ∧
      ∀ (c' : Cfg) (u : κ) (e' : Err) (rest : List Ev), trace u = (wire d).map .byte ++ .fault e' :: rest →
        ∃ q u', HttpResponse.deserialize c' u = (.ok q, u') ∧ q.status.toCode = r.status.toCode ∧ q.headers = r.headers ∧
          FailsAfter q.body bs e' := by
  obtain ⟨_, d, h2, h3, h4⟩ := C85_cut_partial hra hrel hkept h ho errText s self hs r hi (by rw [hv]; decide) (by rw [hv]; decide)
    bs t' t'' e hd hf
  refine ⟨d, h2, fun c' u e' rest hu => ?_⟩
  rw [hw d h3, h4, hs0, hv, versionedHead_one, List.nil_append, List.map_append, List.append_assoc] at hu
  obtain ⟨q, u', k1, k2, _, _, k5, k6, _, k8⟩ := C19_roundtrip c' u r.status r.headers _ hh hl (by
    rw [hu]; exact delivers_map c' _ _)
  refine ⟨q, u', k1, k2, k5, ?_⟩
  have e1 : utf8 "transfer-encoding" = b!"transfer-encoding" := by decide +kernel
  have e2 : utf8 "chunked" = b!"chunked" := by decide +kernel
  have e3 : utf8 "content-length" = b!"content-length" := by decide +kernel
  rw [e1, e2] at hnc
  rw [e3] at hlong
  obtain ⟨_, enc, len, hb⟩ := response_under k1
  rw [hb] at k6 ⊢
  have henc : enc ≠ some b!"chunked" := by
    rintro rfl
    rw [chunked_new] at k6
    cases k6 with
    | chunked hc => exact hnc hc
  refine C92_plain_partial c' enc henc len _ bs e' rest (by rw [BufReader.trace_new, k8]) fun N hN => ?_
  subst hN
  unfold HttpBody.new at k6
  rw [if_neg henc] at k6
  generalize hfr : framing _ = fr at k6
  have hfr' : fr = .limited N := by rw [← hfr]; simp [framing]
  subst hfr'
  cases k6 with
  | limited _ hv hn => exact hlong _ _ hv hn

/-- False in full: on a connection that sends what it was given only when it is flushed, nothing of the response has left,
though the head and all of `bs` have been given to it. -/
theorem C167_download_false {P : Duplex κ Sink → Prop} (hrel : Reliable c P) (hkept : ∀ s n, P s → P (read s n).2)
    (h : Handler c η (Duplex κ Sink) ρ ε) (ho : OnlyReads h) (errText : Err → Bytes) (s : Duplex κ Sink) (self : η) (hs : P s)
    (hs0 : s.wr.got = []) (r : ServerResponse c ρ)
    (hi : (h.serveOneInner errText s self).1 = .ok r ∨ (h.serveOneInner errText s self).1 = .err r) (hv : r.version = ⟨1, 1⟩)
    (bs : Bytes) (t' t'' : List Ev) (e : Err) (hd : Delivers c (trace r.body) bs t') (hf : Fails c t' e t'') :
    ∃ d, (h.serveOne errText (.ok s) self).2.1 = some d ∧ sent d = responseHead r.status.display r.headers.entries ++ bs ∧
      (s.wr.flushed = 0 → wire d = []) := by
  obtain ⟨_, d, h2, _, h4⟩ := C85_cut_partial (fun _ _ => rfl) hrel hkept h ho errText s self hs r hi (by rw [hv]; decide)
    (by rw [hv]; decide) bs t' t'' e hd hf
  refine ⟨d, h2, ?_, fun hfl => ?_⟩
  · rw [h4, hv, versionedHead_one, show sent s = s.wr.got from rfl, hs0]; simp
  · obtain ⟨d', g1, g2⟩ := C117_wire_false h ho errText s self (by rw [hfl]; exact Nat.zero_le _)
    rw [h2] at g1
    cases g1
    rw [g2]
    show s.wr.got.take s.wr.flushed = []
    rw [hs0]; simp

end

/-- Witness for `C167_upload`: `ab` and `c` are written and flushed; the server, which gets a timeout for what comes next,
has the request and reads `ab` and `c` before the timeout. -/
example (c : Cfg) : let _ := asciiCase
    let r : HttpRequest c (BufReader c EmptyReader) := { HttpRequest.new c .Put b!"/x" with headers := ⟨[(b!"transfer-encoding", b!"chunked")]⟩ }
    (match r.serialize (BufWriter.new c (Sink.mk [] 0 [.accept 3, .accept 1])) with
      | .ok o =>
        match perform o [.write b!"ab", .flush, .write b!"c"] with
        | (true, o1) =>
          match flush o1 with
          | (.ok (), .WithBody b2) =>
            decide (wire b2.socket = b!"PUT /x HTTP/1.1\r\ntransfer-encoding: chunked\r\n\r\n2\r\nab\r\n1\r\nc\r\n") &&
            match HttpRequest.deserialize c (Wire.mk [.data (wire b2.socket), .fault (.io (.other 5))]) with
            | (.ok q, _) => decide ((calls q.body [10, 10]).1 = [.ok b!"ab", .ok b!"c"]) &&
              decide ((calls q.body [10, 10, 10]).1 = [.ok b!"ab", .ok b!"c", .error (if c.std then .io (.other 0) else .io (.other 5))])
            | _ => false
          | _ => false
        | _ => false
      | _ => false) = true := by
  rcases c with ⟨_ | _⟩ <;> decide +kernel

/-- Witness for `C167_download_partial`: of a body that has given `ab` and gives no more, over a socket, the client gets
`ab`. And for `C167_download_false`: on a connection that waits for a flush, nothing is sent. -/
example : let _ := asciiCase
    let server : Handler ⟨false⟩ Unit Sock Wire Err :=
      { Handler.defaults ⟨false⟩ Unit Sock Wire Err (fun _ => ServerResponse.fromString ⟨false⟩ .InternalServerError []) with
        get := fun _ self => (.ok (HttpResponse.new ⟨false⟩ .OK (.B ⟨[.data b!"a", .data b!"b", .fault isDir]⟩)), self) }
    let s : Sock := ⟨utf8 "GET /a HTTP/1.1\r\n\r\n", false, [18], false, [], [100], none⟩
    (match (server.serveOne (fun _ => []) (.ok s) ()).2.1 with
      | some d =>
        match HttpResponse.deserialize ⟨true⟩ (Wire.mk [.data (wire d), .fault (.io (.other 5))]) with
        | (.ok q, _) => decide ((calls q.body [1, 1, 1]).1 = [.ok b!"a", .ok b!"b", .error (.io (.other 5))])
        | _ => false
      | _ => false) = true ∧
    (((cutHandler ⟨false⟩).serveOne (fun _ => []) (.ok (requestConn b!"GET / HTTP/1.1\r\n\r\n")) ()).2.1.map fun d => (sent d, wire d)) =
      some (b!"HTTP/1.1 200 OK\r\n\r\nab", []) := by
  intro _ server s
  exact ⟨by decide +kernel, by decide +kernel⟩

end HttpIo
