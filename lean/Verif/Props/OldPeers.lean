import Verif.Props.DecodableResponse
import Verif.Props.Repeated
import Verif.Props.Pool
import Verif.Props.Unheard

/-! C165: chunked framing is used only with peers that understand it. -/

namespace HttpIo
open Spec

section
variable [CaseMap] {c : Cfg} {σ : Type}

/-- In full: a request is chunked only if the server is known to speak HTTP/1.1 or later (RFC 7230 3.3.1). That is false
(`C165_old_false`). What holds: a request without a body, that is one with GET, HEAD, OPTIONS or TRACE, is never chunked;
and a DELETE, POST or PUT always is, whatever came before on the connection. -/
theorem C165_request_partial [LawfulWriter σ] (u : Url) (host : Bytes) (m : HttpMethod) (ha : AsciiText u.scheme)
    (hs : PlainHttp u ∨ SecureHttp u) (hh : u.host = some host) :
    ∃ b hs, HttpRequestBuilder.new c (HttpUrl.tryFrom u) m = .ok b ∧
      ((∃ v, (utf8 "transfer-encoding", v) ∈ hs) ↔ m = .Delete ∨ m = .Post ∨ m = .Put) ∧
      ∀ (s : σ) o, b.send s = .ok o → outgoingSent o = sent s ++ requestHead m (requestTarget { u with query := none }) hs := by
  obtain ⟨sc, h1, _⟩ := HttpUrl.tryFrom_ok ha hs hh
  obtain ⟨b, h2, h3, h4, h5, h6⟩ := HttpRequestBuilder.new_ok c ⟨u, sc, host⟩ m
  refine ⟨b, standardHeaders m host, by rw [h1, h2], ?_, fun s o ho => ?_⟩
  · have e : utf8 "transfer-encoding" = b!"transfer-encoding" := by decide +kernel
    rw [e]
    unfold standardHeaders
    cases m <;> simp
  · obtain ⟨k1, _⟩ := C18_serialized b.request s h5 o ho
    rw [h3, h4, h6, ← target_eq] at k1
    exact k1

/-- The same for a client with pooled connections: whatever has been read from them, its GETs are not chunked and its PUTs are. -/
theorem C165_pooled_partial [LawfulWriter σ] {ω α : Type} [DecidableEq α] (N : StreamConnector ω α σ) (u : Url) (host : Bytes)
    (hs : AsciiText u.scheme) (hu : PlainHttp u ∨ SecureHttp u) (hh : u.host = some host) (cl cl' : HttpClient α σ) (w w' : ω)
    (a : α) (o : OutgoingRequest c σ) :
    ∀ x ∈ [(cl.get c N (some u) w, HttpMethod.Get), (cl.put c N (some u) w, .Put)], x.1 = (.ok (a, o), cl', w') →
    ∃ s hs, poolGet a cl'.streams = some s ∧
      outgoingSent o = sent s ++ requestHead x.2 (requestTarget { u with query := none }) hs ∧
      ((∃ v, (utf8 "transfer-encoding", v) ∈ hs) ↔ x.2 = .Put) := by
  intro x hx h
  obtain ⟨w1, s, _, _, k1, k2, _⟩ := C37_pooled N u host hs hu hh cl cl' w w' a o x hx h
  refine ⟨s, _, k1, k2, ?_⟩
  have e : utf8 "transfer-encoding" = b!"transfer-encoding" := by decide +kernel
  rw [e]
  simp only [List.mem_cons, List.not_mem_nil, or_false] at hx
  rcases hx with rfl | rfl <;> simp [standardHeaders]

end

/-! A server that has answered a GET with `HTTP/1.0` and then gets a PUT. -/

/-- It says that it speaks 1.0. -/
def oldServer : Duplex SliceReader Sink :=
  ⟨⟨utf8 "HTTP/1.0 " ++ b!"200 OK\r\nContent-Length: 0\r\n\r\n"⟩, ⟨[], 0, []⟩⟩

def oldGet : Ask :=
  ⟨false, { scheme := b!"http", host := some b!"a", port := none, path := b!"/", query := none, fragment := none }, [], [8]⟩
def oldPut : Ask :=
  ⟨true, { scheme := b!"http", host := some b!"a", port := none, path := b!"/up", query := none, fragment := none }, [.write b!"hi"], [8]⟩

theorem old_key (c : Cfg) : let _ := asciiCase
    (match (conversation c [oldGet] oldServer).1 with
      | [.got .OK _ _] => true | _ => false) = true ∧
    (conversation c [oldGet, oldPut] oldServer).2.wr.got = (conversation c [oldGet] oldServer).2.wr.got ++
      requestHead .Put b!"/up" (standardHeaders .Put b!"a") ++ b!"2\r\nhi\r\n0\r\n\r\n" := by
  rcases c with ⟨_ | _⟩ <;> decide +kernel

/-- It is false that a client does not send a chunked request to a server that has said, in answer to its last request on the
same connection, that it speaks HTTP/1.0. -/
theorem C165_old_false (c : Cfg) : let _ := asciiCase
    ¬ ∀ (q q' : Ask) (rest : Bytes) (m : HttpMethod) (target : Bytes) (hs : List (Bytes × Bytes)) (tail : Bytes),
      let s : Duplex SliceReader Sink := ⟨⟨utf8 "HTTP/1.0 " ++ rest⟩, ⟨[], 0, []⟩⟩
      (∃ status headers body, (conversation c [q] s).1 = [.got status headers body]) →
      (conversation c [q, q'] s).2.wr.got = (conversation c [q] s).2.wr.got ++ requestHead m target hs ++ tail →
      ∀ v, (utf8 "transfer-encoding", v) ∉ hs := by
  intro _ h
  obtain ⟨k1, k2⟩ := old_key c
  refine h oldGet oldPut b!"200 OK\r\nContent-Length: 0\r\n\r\n" .Put b!"/up" (standardHeaders .Put b!"a") b!"2\r\nhi\r\n0\r\n\r\n" ?_ k2 b!"chunked" ?_
  · show ∃ status headers body, (conversation c [oldGet] oldServer).1 = _
    split at k1
    · rename_i hs b heq
      exact ⟨_, _, _, heq⟩
    · cases k1
  · have e : utf8 "transfer-encoding" = b!"transfer-encoding" := by decide +kernel
    rw [e]
    simp [standardHeaders]

section
variable [CaseMap] {c : Cfg} {η σ ρ ε : Type} [LawfulReader σ] [ZeroReader σ]

omit [ZeroReader σ] in
/-- A server makes no response chunked of its own accord: one with a `Transfer-Encoding` is the handler's, or made from the
handler's error by the handler's conversion. -/
theorem C165_server (h : Handler c η σ ρ ε) (errText : Err → Bytes) (s : σ) (self : η) (r : ServerResponse c ρ)
    (hr : (h.serveOneInner errText s self).1 = .ok r ∨ (h.serveOneInner errText s self).1 = .err r) {v : Bytes}
    (hv : (utf8 "transfer-encoding", v) ∈ r.headers.entries) :
    ∃ m uri body, (handled h m uri body self).1 = .ok r ∨ ∃ e, (handled h m uri body self).1 = .err e ∧ h.into e = r := by
  have plain : ∀ st t, (utf8 "transfer-encoding", v) ∉ (ServerResponse.fromString c (ρ := ρ) st t).headers.entries := by
    intro st t hm
    exact absurd hm (List.not_mem_nil)
  have plain' : ∀ e, (utf8 "transfer-encoding", v) ∉ (ServerResponse.ofError c (ρ := ρ) errText e).headers.entries := by
    intro e
    unfold ServerResponse.ofError
    split <;> exact plain _ _
  rcases inner_cases h errText s self with ⟨e, s1, hp⟩ | ⟨s1, hp⟩ | ⟨q, s1, hp, hq⟩ | ⟨q, s1, hp, hq⟩
  · rw [serveOneInner_err h errText self hp] at hr
    rcases hr with hr | hr
    · cases hr
    · injection hr with hr; subst hr; exact absurd hv (plain' _)
  · rw [serveOneInner_panic h errText self hp] at hr
    rcases hr with hr | hr <;> cases hr
  · rw [serveOneInner_handled h errText self hp hq] at hr
    refine ⟨q.method, q.uri, q.body, ?_⟩
    dsimp only at hr
    rcases hh : (handled h q.method q.uri q.body self).1 with a | e | _ <;> rw [hh] at hr <;> dsimp only [Reply.mapErr] at hr
    · rcases hr with hr | hr
      · injection hr with hr; exact .inl (by rw [hr])
      · cases hr
    · rcases hr with hr | hr
      · cases hr
      · injection hr with hr; exact .inr ⟨e, rfl, hr⟩
    · rcases hr with hr | hr <;> cases hr
  · rw [serveOneInner_refused h errText self hp hq] at hr
    rcases hr with hr | hr
    · cases hr
    · injection hr with hr; subst hr; exact absurd hv (plain _ _)

/-- Version 1.1, and no headers, or the length only. -/
def FewHeaders {τ : Type} (r : HttpResponse c τ) : Prop := r.version = ⟨1, 1⟩ ∧ (r.headers.entries = [] ∨ ∃ v n, Numeral 10 v n ∧ r.headers.entries = [(b!"content-length", v)])

omit [LawfulReader σ] [ZeroReader σ] in
theorem few_listing (readDir : Fs → List Bytes → List Bytes) (root uri : Bytes) (fs : Fs) {r : ServerResponse c Wire}
    (h : (ListingHandler.get c readDir root uri fs).1 = .ok r) : FewHeaders r := by
  have l1 : CaseMap.lower b!"Content-Length" = b!"content-length" := by rw [lower_const b!"Content-Length"]; decide
  unfold ListingHandler.get ListingHandler.getAmid at h
  dsimp only at h
  split at h
  · cases h
  · split at h
    · cases h
    · split at h
      · cases h
      · cases h
      · cases h
      · injection h with h; subst h; exact ⟨rfl, .inl rfl⟩
  · cases h
  · split at h
    · cases h
    · rename_i content _ _ _ _
      injection h with h
      subst h
      refine ⟨rfl, .inr ⟨showDec content.length, _, numeral_showDec _, ?_⟩⟩
      simp only [HttpResponse.addHeader, HttpResponse.new, HttpHeaders.insert, HttpHeaders.new, l1]
      rfl

omit [CaseMap] in
theorem few_put (root uri : Bytes) (body : HttpBody c (BufReader c σ)) (fs : Fs) {r : ServerResponse c Wire}
    (h : (FileHandler.put root uri body fs).1 = .ok r) : FewHeaders r := by
  unfold FileHandler.put FileHandler.putOn at h
  split at h
  · cases h
  · split at h
    · cases h
    · injection h with h; subst h; exact ⟨rfl, .inl rfl⟩

omit [LawfulReader σ] [ZeroReader σ] [CaseMap] in
theorem few_get (root uri : Bytes) (fs : Fs) {r : ServerResponse c Wire}
    (h : (FileHandler.get c root uri fs).1 = .ok r) : FewHeaders r := by
  unfold FileHandler.get at h
  split at h
  · cases h
  · injection h with h; subst h; exact ⟨rfl, .inl rfl⟩

theorem few_files {h : Handler c Fs σ Wire Err} {root : Bytes} (hh : IsFileServer h root) (errText : Err → Bytes) (s : σ) (fs : Fs)
    (r : ServerResponse c Wire)
    (hr : (h.serveOneInner errText s fs).1 = .ok r ∨ (h.serveOneInner errText s fs).1 = .err r) : FewHeaders r := by
  have own : ∀ e, FewHeaders (ServerResponse.ofError c (ρ := Wire) errText e) := by
    intro e
    unfold ServerResponse.ofError
    split <;> exact ⟨rfl, .inl rfl⟩
  have into : ∀ e, FewHeaders (h.into e) := by
    intro e
    rcases hh with ⟨t, rfl⟩ | ⟨rd, t, rfl⟩
    · show FewHeaders (ServerResponse.ofError c t e)
      unfold ServerResponse.ofError
      split <;> exact ⟨rfl, .inl rfl⟩
    · exact ⟨rfl, .inl rfl⟩
  have ok : ∀ m uri body a, (handled h m uri body fs).1 = .ok a → FewHeaders a := by
    intro m uri body a h1
    rcases hh with ⟨t, rfl⟩ | ⟨rd, t, rfl⟩
    · cases m with
      | Get => exact few_get root uri fs h1
      | Put => exact few_put root uri body fs h1
      | _ => cases h1; exact ⟨rfl, .inl rfl⟩
    · cases m with
      | Get => exact few_listing rd root uri fs h1
      | Put => exact few_put root uri body fs h1
      | _ => cases h1; exact ⟨rfl, .inl rfl⟩
  rcases inner_cases h errText s fs with ⟨e, s1, hp⟩ | ⟨s1, hp⟩ | ⟨q, s1, hp, hq⟩ | ⟨q, s1, hp, hq⟩
  · rw [serveOneInner_err h errText fs hp] at hr
    rcases hr with hr | hr
    · cases hr
    · injection hr with hr; subst hr; exact own e
  · rw [serveOneInner_panic h errText fs hp] at hr
    rcases hr with hr | hr <;> cases hr
  · rw [serveOneInner_handled h errText fs hp hq] at hr
    dsimp only at hr
    rcases hh : (handled h q.method q.uri q.body fs).1 with a | e | _ <;> rw [hh] at hr <;> dsimp only [Reply.mapErr] at hr
    · rcases hr with hr | hr
      · injection hr with hr; subst hr; exact ok _ _ _ _ hh
      · cases hr
    · rcases hr with hr | hr
      · cases hr
      · injection hr with hr; subst hr; exact into e
    · rcases hr with hr | hr <;> cases hr
  · rw [serveOneInner_refused h errText fs hp hq] at hr
    rcases hr with hr | hr
    · cases hr
    · injection hr with hr; subst hr; exact ⟨rfl, .inl rfl⟩

/-- So the file servers never answer with chunked framing, and clients of HTTP/1.0 can read what they send: whatever comes,
they write nothing, or the beginning (the whole, if they say that the request was served) of a head without a
`Transfer-Encoding` and then a body. "Write" is as in `C52_written`. -/
theorem C165_files [LawfulWriter σ] {h : Handler c Fs σ Wire Err} {root : Bytes} (hh : IsFileServer h root) (errText : Err → Bytes)
    (s : σ) (fs : Fs) :
    ∃ d x, (h.serveOne errText (.ok s) fs).2.1 = some d ∧ sent d = sent (h.serveOneInner errText s fs).2.1 ++ x ∧
      (x = [] ∧ (h.serveOne errText (.ok s) fs).1 ≠ .ok () ∨
        ∃ (status : HttpStatus) (hs : List (Bytes × Bytes)) (body : Bytes), x <+: versionedHead 1 1 status.display hs ++ body ∧
          ((h.serveOne errText (.ok s) fs).1 = .ok () → x = versionedHead 1 1 status.display hs ++ body) ∧
          ∀ k v, (k, v) ∈ hs → k = utf8 "content-length" ∧ ∃ n, Numeral 10 v n) := by
  obtain ⟨d, hd, k⟩ := C52_written h errText s fs
  rcases k with ⟨k1, _, k2⟩ | ⟨r, hr, k⟩
  · exact ⟨d, [], hd, by rw [k2, List.append_nil], .inl ⟨rfl, by rw [k1]; simp⟩⟩
  · obtain ⟨hv, few⟩ := few_files hh errText s fs r hr
    have hfew : ∀ k v, (k, v) ∈ r.headers.entries → k = utf8 "content-length" ∧ ∃ n, Numeral 10 v n := by
      have e : utf8 "content-length" = b!"content-length" := by decide +kernel
      rw [e]
      intro k v hm
      rcases few with h2 | ⟨v', n, hn, h2⟩ <;> rw [h2] at hm <;> simp at hm
      exact ⟨hm.1, n, by rw [hm.2]; exact hn⟩
    rw [hv] at k
    rcases k (by decide) (by decide) with ⟨k1, bs, t, _, _, k2⟩ | ⟨e, k1, p, bs, t, _, k2, k3⟩
    · exact ⟨d, _, hd, by rw [k2, List.append_assoc], .inr ⟨r.status, r.headers.entries, bs, List.prefix_rfl, fun _ => rfl, hfew⟩⟩
    · exact ⟨d, p, hd, k3, .inr ⟨r.status, r.headers.entries, bs, k2, by rw [k1]; simp, hfew⟩⟩

end

/-! Witnesses. -/

/-- A PUT over a socket, to a URL with a host. -/
example (c : Cfg) : let _ := asciiCase
    let u : Url := { scheme := b!"http", host := some b!"a", port := none, path := b!"/up", query := none, fragment := none }
    AsciiText u.scheme ∧ PlainHttp u ∧
    (match HttpRequestBuilder.new c (HttpUrl.tryFrom u) .Put with
      | .ok b => match b.send oldServer with | .ok _ => true | _ => false
      | _ => false) = true := by
  intro _ u
  refine ⟨by rw [← isAscii_iff]; decide, by unfold PlainHttp; rw [utf8_http]; exact sameText_refl _, ?_⟩
  rcases c with ⟨_ | _⟩ <;> decide +kernel

/-- A pooled connection to a server of HTTP/1.0 on which the next PUT goes. -/
example (c : Cfg) : let _ := asciiCase
    (match (HttpClient.mk [(b!"a", oldServer)]).put c (leadingTo muteServer) (some oldPut.url) 0 with
      | (.ok _, _, 0) => true | _ => false) = true := by
  rcases c with ⟨_ | _⟩ <;> decide +kernel

/-- A handler that answers chunked: the header is its own. -/
example (c : Cfg) : let _ := asciiCase
    let r : ServerResponse c Wire := (HttpResponse.new c .OK (.A (Cursor.new b!"0\r\n\r\n"))).addHeader b!"Transfer-Encoding" b!"chunked"
    let h : Handler c Unit (Duplex Wire Sink) Wire Err :=
      { Handler.defaults c Unit (Duplex Wire Sink) Wire Err (ServerResponse.ofError c fun _ => []) with get := fun _ u => (.ok r, u) }
    (match (h.serveOneInner (fun _ => []) (requestConn b!"GET /a HTTP/1.0\r\n\r\n") ()).1 with
      | .ok r => decide ((utf8 "transfer-encoding", b!"chunked") ∈ r.headers.entries) | _ => false) = true := by
  rcases c with ⟨_ | _⟩ <;> decide +kernel

/-- A client of HTTP/1.0 gets a file from the listing server, with its length. -/
example (c : Cfg) : let _ := asciiCase
    ((listingHandler c (Duplex Wire Sink) (fun _ _ => []) b!"/srv" fun _ => []).serveOne (fun _ => [])
      (.ok (requestConn b!"GET /a HTTP/1.0\r\n\r\n")) sampleFs).2.1.map sent =
      some b!"HTTP/1.1 200 OK\r\ncontent-length: 3\r\n\r\nold" := by
  rcases c with ⟨_ | _⟩ <;> decide +kernel

end HttpIo
