import Verif.Spec.Conventions
import Verif.Props.Depends
import Verif.Props.Framing
import Verif.Props.Client
import Verif.Lemmas.Pipes

/-! C114 to C117: redirects, several requests on a connection, versions of the protocol, flushing. -/

namespace HttpIo
open Spec

/-! ### C114: redirects -/

section
variable [CaseMap] {c : Cfg} {ω α ρ σ : Type} [LawfulReader ρ] [ZeroReader ρ] [LawfulWriter σ]

/-- Full statement: `client::get` follows a redirect to the place its `Location` names. What holds: every redirect is reported as
an unexpected status with its code, after one connection; nothing is looked up or connected to after it. -/
theorem C114_redirect_partial {P : σ → Prop} (hr : Reliable c P) (N : StreamConnector ω α (Duplex ρ σ))
    (url : Url) (host : Bytes) (hs : AsciiText url.scheme) (hu : PlainHttp url ∨ SecureHttp url) (hhost : url.host = some host)
    (w w1 w2 : ω) (a : α) (d : Duplex ρ σ)
    (ha : N.toStreamAddr url w = (.ok a, w1)) (hc : N.connect a w1 = (.ok d, w2)) (hP : P d.wr)
    (status : HttpStatus) (hstatus : Redirects status) (headers : HttpHeaders) (rest : List Ev)
    (hh : SendableHeaders headers.entries) (hl : LengthOk headers.entries)
    (hd : Delivers c (trace d.rd) (responseHead status.display headers.entries) rest) :
    ∃ st, clientGet c N (some url) w = (.err (.unexpectedStatus st), w2) ∧ st.toCode = status.toCode := by
  obtain ⟨_, h⟩ := C43_get hr N url host hs hu hhost w w1 w2 a d ha hc hP status headers rest hh hl hd
  obtain ⟨st, h1, h2, _⟩ := h (fun h200 => by
    unfold Redirects at hstatus
    rw [h200] at hstatus
    revert hstatus; decide)
  exact ⟨st, h1, h2⟩

end

/-- A network on which the first connection is answered with a redirect, and every later one with the page itself. The world
counts the connections. -/
def redirecting : StreamConnector Nat Unit (Duplex Wire Sink) where
  toStreamAddr _ n := (.ok (), n)
  connect _ n := (.ok ⟨⟨[.data (if n = 0 then b!"HTTP/1.1 301 Moved Permanently\r\ncontent-length: 0\r\nlocation: http://a/next\r\n\r\n"
    else b!"HTTP/1.1 200 OK\r\ncontent-length: 4\r\n\r\nreal")]⟩, ⟨[], 0, []⟩⟩, n + 1)

/-- False: the redirect is not followed, although the page is there for whoever connects once more. -/
theorem C114_redirect_false (c : Cfg) : let _ := asciiCase
    let url : Url := { scheme := utf8 "http", host := some (utf8 "a"), port := none, path := utf8 "/old", query := none, fragment := none }
    let outcome (n : Nat) := match clientGet c redirecting (some url) n with
      | (.ok _, m) => (none, true, m)
      | (.err (.unexpectedStatus st), m) => (some st, false, m)
      | (_, m) => (none, false, m)
    outcome 0 = (some .MovedPermanently, false, 1) ∧ outcome 1 = (none, true, 2) := by
  intro inst url outcome
  constructor <;> rcases c with ⟨_ | _⟩ <;> decide +kernel

/-! ### C115: several requests on one connection -/

section
variable [CaseMap] {c : Cfg} {η σ ρ ε : Type} [LawfulReader σ] [ZeroReader σ] [LawfulWriter σ] [LawfulReader ρ] [ZeroReader ρ]

omit [LawfulWriter σ] [LawfulReader ρ] [ZeroReader ρ] in
/-- A request with a whole body is read as one whose body is that, and how it is delimited. -/
theorem bodyThen_trace {s : σ} {m : HttpMethod} {target : Bytes} {headers : HttpHeaders} {t : List Ev} {bs : Bytes} {rest : List Ev}
    (ht : SendableTarget target) (hh : SendableHeaders headers.entries) (hl : LengthOk headers.entries)
    (hd : Delivers c (trace s) (requestHead m target headers.entries) t) (hb : BodyThen c headers.entries t bs rest) :
    ∃ r s', HttpRequest.deserialize c (BufReader.new c s) = (.ok r, s') ∧ r.method = m ∧ r.uri = target ∧
      FramedBy headers.entries (framing r.body) ∧ trace r.body = bs.map .byte := by
  obtain ⟨r, s', g1, g2, g3, _, g4, g5, _, g6⟩ := C18_roundtrip c (BufReader.new c s) m target headers t ht hh hl
    (by rw [BufReader.trace_new]; exact hd)
  refine ⟨r, s', g1, g2, g3, g5, ?_⟩
  obtain ⟨_, enc, len, e⟩ := request_under g1
  obtain ⟨f1, f2, _⟩ := framed_trace (c := c) enc len s'
  rw [← e] at f1 f2
  cases hb with
  | chunked chs last h1 h2 h3 h4 h5 =>
    obtain ⟨_, k⟩ := f1 (framedBy_unique hh.1 g5 h1)
    rw [e, k, ← h5]
    exact trace_of_yields (C24_decode c len s' chs last rest h2 h3 (by rw [g6]; exact h4)).1
  | limited h1 h2 =>
    rw [f2 _ (framedBy_unique hh.1 g5 h1), g6, h2]
    exact (limitTrace_more bs.length bs (Nat.le_refl _) rest).trans (by rw [List.take_length])

/-- Full statement: every request on a connection is answered, or the answer announces the end with `Connection: close`. What
holds: the first is answered, and as if nothing came after it. -/
theorem C115_first_partial {P : σ → Prop} (hra : ReadsApart σ) (hrel : Reliable c P) (hkept : ∀ s n, P s → P (read s n).2)
    (h : Handler c η σ ρ ε) (ho : OnlyReads h) (hb : ByContent h) (errText : Err → Bytes) (s u : σ) (self : η) (hs : P s) (hu : P u)
    (m : HttpMethod) (target : Bytes) (headers : HttpHeaders) (ht : SendableTarget target) (hh : SendableHeaders headers.entries)
    (hl : LengthOk headers.entries) (t t' : List Ev)
    (hd : Delivers c (trace s) (requestHead m target headers.entries) t)
    (hd' : Delivers c (trace u) (requestHead m target headers.entries) t')
    (hbody : (m ≠ .Put ∧ m ≠ .Post) ∨
      ∃ bs rest rest', BodyThen c headers.entries t bs rest ∧ BodyThen c headers.entries t' bs rest') :
    SameAnswer h errText s u self := by
  rcases hbody with ⟨h1, h2⟩ | ⟨bs, rest, rest', h1, h2⟩
  · obtain ⟨r, s1, g1, g2, g3, _⟩ := C18_roundtrip c (BufReader.new c s) m target headers t ht hh hl
      (by rw [BufReader.trace_new]; exact hd)
    obtain ⟨r', u1, k1, k2, k3, _⟩ := C18_roundtrip c (BufReader.new c u) m target headers t' ht hh hl
      (by rw [BufReader.trace_new]; exact hd')
    obtain ⟨e1, e2⟩ := handled_same h hb errText self g1 k1 (g2.trans k2.symm) (g3.trans k3.symm) (fun hm => by
      rw [g2] at hm
      rcases hm with hm | hm
      · exact absurd hm h1
      · exact absurd hm h2)
    exact same_answer hra hrel hkept h ho errText s u self hs hu e1 e2
  · obtain ⟨r, s1, g1, g2, g3, g4, g5⟩ := bodyThen_trace ht hh hl hd h1
    obtain ⟨r', u1, k1, k2, k3, k4, k5⟩ := bodyThen_trace ht hh hl hd' h2
    exact C86_body hra hrel hkept h ho hb errText s u self hs hu r r' s1 u1 g1 k1 (g2.trans k2.symm) (g3.trans k3.symm)
      (framedBy_unique hh.1 g4 k4) (g5.trans k5.symm)

end

/-- False: of two requests on a connection only the first is answered, and nothing in the answer says so. -/
theorem C115_all_answered_false (c : Cfg) : let _ := asciiCase
    let server := fileHandler c (Duplex Wire Sink) b!"/srv" fun _ => []
    let get (s : String) := (server.serveOne (fun _ => []) (.ok (requestConn (utf8 s))) sampleFs).2.1.map sent
    get "GET /a HTTP/1.1\r\n\r\nGET /a HTTP/1.1\r\n\r\n" = some (utf8 "HTTP/1.1 200 OK\r\n\r\nold") := by
  intro inst server get
  rcases c with ⟨_ | _⟩ <;> decide +kernel

/-! ### C116: versions of the protocol -/

section
variable [CaseMap] {c : Cfg} {η σ ρ ε : Type} [LawfulReader σ] [ZeroReader σ] [LawfulWriter σ] [LawfulReader ρ] [ZeroReader ρ]

/-- Full statement: a request of another major version than 1 is answered with 505. What holds: the version makes no difference. -/
theorem C116_version_partial {P : σ → Prop} (hra : ReadsApart σ) (hrel : Reliable c P) (hkept : ∀ s n, P s → P (read s n).2)
    (h : Handler c η σ ρ ε) (ho : OnlyReads h) (hb : ByContent h) (errText : Err → Bytes) (s u : σ) (self : η) (hs : P s) (hu : P u)
    (m : HttpMethod) (target : Bytes) (line line' : Bytes) (major minor major' minor' : Nat) (hist : List (Bytes × Bytes)) (t : List Ev)
    (hl : RequestLine line m target major minor) (hl' : RequestLine line' m target major' minor')
    (hd : HeadOf c (trace s) line hist t) (hd' : HeadOf c (trace u) line' hist t) : SameAnswer h errText s u self :=
  C86_framing hra hrel hkept h ho hb errText s u self hs hu m target line line' major minor major' minor' hist hist t hl hl' hd hd'
    fun _ _ _ => Iff.rfl

end

/-- False: requests of versions 2.0 and 0.9 are served, and as version 1.1. -/
theorem C116_version_false (c : Cfg) : let _ := asciiCase
    let server := fileHandler c (Duplex Wire Sink) b!"/srv" fun _ => []
    let get (s : String) := (server.serveOne (fun _ => []) (.ok (requestConn (utf8 s))) sampleFs).2.1.map sent
    get "GET /a HTTP/2.0\r\n\r\n" = some (utf8 "HTTP/1.1 200 OK\r\n\r\nold") ∧
    get "GET /a HTTP/0.9\r\n\r\n" = some (utf8 "HTTP/1.1 200 OK\r\n\r\nold") := by
  intro inst server get
  constructor <;> rcases c with ⟨_ | _⟩ <;> decide +kernel

/-! ### C117: flushing -/

section
variable [CaseMap] {c : Cfg} {η σ ρ ε : Type} [LawfulReader σ] [ZeroReader σ] [LawfulWriter σ] [LawfulReader ρ] [ZeroReader ρ]

/-- Full statement: when `serve_one` succeeds, the whole response has reached the wire. What holds: it has if the connection
keeps nothing back, so that what was written is on the wire without a flush. -/
theorem C117_wire_partial {P : σ → Prop} (hra : ReadsApart σ) (hrel : Reliable c P) (hkept : ∀ s n, P s → P (read s n).2)
    (hw : ∀ s, P s → wire s = sent s)
    (h : Handler c η σ ρ ε) (ho : OnlyReads h) (errText : Err → Bytes) (s : σ) (self : η) (hs : P s)
    (r : ServerResponse c ρ)
    (hi : (h.serveOneInner errText s self).1 = .ok r ∨ (h.serveOneInner errText s self).1 = .err r)
    (hv1 : r.version.major < 10) (hv2 : r.version.minor < 10)
    (bs : Bytes) (t' : List Ev) (hd : Delivers c (trace r.body) bs t') (he : Ended c t') :
    (h.serveOne errText (.ok s) self).1 = .ok () ∧
    ∃ d, (h.serveOne errText (.ok s) self).2.1 = some d ∧
      wire d = wire s ++ versionedHead r.version.major r.version.minor r.status.display r.headers.entries ++ bs := by
  obtain ⟨h1, d, h2, h3, h4⟩ := C52_succeeds hra hrel hkept h ho errText s self hs r hi hv1 hv2 bs t' hd he
  exact ⟨h1, d, h2, by rw [hw d h3, hw s hs]; exact h4⟩

omit [CaseMap] [LawfulReader σ] [ZeroReader σ] in
theorem respond_unflushed {Q : σ → Prop} (hq : ∀ s buf, Q s → Q (writeAll c s buf).2) (r : ServerResponse c ρ) {s : σ} (hs : Q s) :
    Q (respond c r s).2.2 := by
  have hp : ∀ (ps : List Bytes) (s : σ), Q s → Q (writePieces c s ps).2 := by
    intro ps
    induction ps with
    | nil => intro s hs; exact hs
    | cons p ps ih =>
      intro s hs
      unfold writePieces
      have := hq s p hs
      split <;> rename_i heq <;> rw [heq] at this
      · exact ih _ this
      · exact this
  have hc : ∀ (b : HttpBody c (BufReader c (Boxed ρ))) (s : σ) (n : Nat), Q s → Q (copy c b s n).2.2 := by
    intro b s n hs
    fun_induction copy c b s n with
    | case1 => exact hs
    | case2 r w n b bs r' hr w' hw ih => have := hq w (b :: bs) hs; rw [hw] at this; exact ih this
    | case3 r w n b bs r' hr e w' hw => have := hq w (b :: bs) hs; rwa [hw] at this
    | case4 r w n e r' hr hx ih => exact ih hs
    | case5 => exact hs
  unfold respond HttpResponse.serialize
  have h1 := hp r.headPieces s hs
  split <;> rename_i heq <;> rw [heq] at h1
  · exact h1
  · rename_i s1
    have h2 := hc r.body s1 0 h1
    split <;> rename_i heq <;> rw [heq] at h2 <;> exact h2

end

section
variable [CaseMap] {c : Cfg} {η ρ κ ε : Type} [LawfulReader κ] [ZeroReader κ] [LawfulReader ρ] [ZeroReader ρ]

theorem sink_unflushed (n : Nat) (got : Bytes) (hn : n ≤ got.length) (s : Sink) (buf : Bytes)
    (hs : s.flushed = n ∧ got <+: s.got) : (writeAll c s buf).2.flushed = n ∧ got <+: (writeAll c s buf).2.got := by
  refine defaultWriteAll_kept (τ := Sink) (Q := fun s => s.flushed = n ∧ got <+: s.got) (fun s buf hs => ?_) hs
  show (Sink.writeImpl s buf).2.flushed = n ∧ got <+: (Sink.writeImpl s buf).2.got
  unfold Sink.writeImpl
  rcases s.plan with _ | ⟨_ | _, _⟩
  · exact ⟨hs.1, hs.2.trans (List.prefix_append _ _)⟩
  · exact ⟨hs.1, hs.2.trans (List.prefix_append _ _)⟩
  · exact hs

/-- False, and always: on a connection that sends what it was given only when it is flushed, `serve_one` puts nothing on the
wire, whatever the request, the handler, and the outcome. -/
theorem C117_wire_false (h : Handler c η (Duplex κ Sink) ρ ε) (ho : OnlyReads h) (errText : Err → Bytes) (s : Duplex κ Sink)
    (self : η) (hn : s.wr.flushed ≤ s.wr.got.length) :
    ∃ d, (h.serveOne errText (.ok s) self).2.1 = some d ∧ wire d = wire s := by
  let Q : Duplex κ Sink → Prop := fun d => d.wr.flushed = s.wr.flushed ∧ s.wr.got <+: d.wr.got
  have hq : ∀ (d : Duplex κ Sink) buf, Q d → Q (writeAll c d buf).2 := fun d buf hd => by
    rw [Duplex.writeAll_def]; exact sink_unflushed _ _ hn d.wr buf hd
  have hi : Q (h.serveOneInner errText s self).2.1 :=
    inner_kept (P := Q) ⟨fun _ _ hd => hd⟩ h ho errText self ⟨rfl, List.prefix_rfl⟩
  have hfin : ∀ d : Duplex κ Sink, Q d → wire d = wire s := by
    rintro d ⟨h1, t, h2⟩
    show d.wr.got.take d.wr.flushed = s.wr.got.take s.wr.flushed
    rw [h1, ← h2, List.take_append_of_le_length hn]
  unfold Handler.serveOne
  dsimp only
  rcases hx : h.serveOneInner errText s self with ⟨r | r | _, s1, self1⟩ <;> rw [hx] at hi
  · have := respond_unflushed hq r hi
    dsimp only
    rcases hy : respond c r s1 with ⟨_ | _, b, s2⟩ <;> rw [hy] at this <;> exact ⟨s2, rfl, hfin _ this⟩
  · have := respond_unflushed hq r hi
    dsimp only
    rcases hy : respond c r s1 with ⟨_ | _, b, s2⟩ <;> rw [hy] at this <;> exact ⟨s2, rfl, hfin _ this⟩
  · exact ⟨s1, rfl, hfin _ hi⟩

end

/-- Witness for `C117_wire_false`: the file server succeeds, has written the page, and nothing is on the wire. -/
example (c : Cfg) : let _ := asciiCase
    let server := fileHandler c (Duplex Wire Sink) b!"/srv" fun _ => []
    let out := server.serveOne (fun _ => []) (.ok (requestConn (utf8 "GET /a HTTP/1.1\r\n\r\n"))) sampleFs
    out.1 = .ok () ∧ out.2.1.map sent = some (utf8 "HTTP/1.1 200 OK\r\n\r\nold") ∧ out.2.1.map wire = some [] := by
  intro inst server out
  refine ⟨?_, ?_, ?_⟩ <;> rcases c with ⟨_ | _⟩ <;> decide +kernel

/-- Witness for `C117_wire_partial`: over a socket, which keeps nothing back, the page is on the wire. -/
example (c : Cfg) : let _ := asciiCase
    let server := fileHandler c Sock b!"/srv" fun _ => []
    let s : Sock := ⟨utf8 "GET /a HTTP/1.1\r\n\r\n", false, [18], false, [], [100], none⟩
    ReadsApart Sock ∧ Reliable c (fun _ : Sock => True) ∧ (∀ s : Sock, wire s = sent s) ∧ OnlyReads server ∧
    (match (server.serveOneInner (fun _ => []) s sampleFs).1 with | .ok r => decide (r.version = ⟨1, 1⟩) | _ => false) = true ∧
    (server.serveOne (fun _ => []) (.ok s) sampleFs).2.1.map wire = some (utf8 "HTTP/1.1 200 OK\r\n\r\nold") := by
  intro inst server s
  refine ⟨fun s n => (s.read_rest n).1, sock_reliable c, fun _ => rfl, fileHandler_onlyReads _ _, ?_, ?_⟩ <;>
    rcases c with ⟨_ | _⟩ <;> decide +kernel

/-- Witness for `C114_redirect_partial`. -/
example (c : Cfg) : let _ := asciiCase
    let url : Url := { scheme := utf8 "http", host := some (utf8 "a"), port := none, path := utf8 "/old", query := none, fragment := none }
    ∃ st, clientGet c redirecting (some url) 0 = (.err (.unexpectedStatus st), 1) ∧ st.toCode.toNat = 301 := by
  intro inst url
  have hu : PlainHttp url := by
    unfold PlainHttp
    exact sameText_refl _
  have ha : AsciiText url.scheme := by rw [← isAscii_iff]; decide +kernel
  have hraw : responseHead HttpStatus.MovedPermanently.display [(b!"content-length", b!"0"), (b!"location", b!"http://a/next")] =
      b!"HTTP/1.1 301 Moved Permanently\r\ncontent-length: 0\r\nlocation: http://a/next\r\n\r\n" := by decide +kernel
  obtain ⟨st, h1, h2⟩ := C114_redirect_partial (sink_reliable c) redirecting url (utf8 "a") ha (.inl hu) rfl 0 0 1 ()
    ⟨⟨[.data b!"HTTP/1.1 301 Moved Permanently\r\ncontent-length: 0\r\nlocation: http://a/next\r\n\r\n"]⟩, ⟨[], 0, []⟩⟩ rfl rfl
    (by simp) .MovedPermanently (.inl (by decide)) ⟨[(b!"content-length", b!"0"), (b!"location", b!"http://a/next")]⟩ []
    ⟨by unfold SortedNames; decide, by decide +kernel, fun kv hkv => by
      simp only [List.mem_cons, List.not_mem_nil, or_false] at hkv
      rcases hkv with rfl | rfl <;>
        exact ⟨isText_ascii (by decide), by decide, by unfold HasCrLf; decide, by rw [← startsBlank_iff]; decide,
          isText_ascii (by decide), by unfold HasCrLf; decide⟩⟩
    (fun v hv => by
      simp only [List.mem_cons, List.not_mem_nil, or_false, Prod.mk.injEq] at hv
      rcases hv with ⟨_, rfl⟩ | ⟨h, _⟩
      · exact ⟨0, lengthText_iff.1 (by decide +kernel)⟩
      · simp at h)
    (by
      rw [hraw, ← List.append_nil (trace _)]
      exact delivers_map _ b!"HTTP/1.1 301 Moved Permanently\r\ncontent-length: 0\r\nlocation: http://a/next\r\n\r\n" [])
  exact ⟨st, h1, by rw [h2]; decide⟩

/-- Witness for `C116_version_partial`: versions 1.1 and 2.0. -/
example (c : Cfg) : let _ := asciiCase
    let s := requestConn (utf8 "GET / HTTP/1.1\r\n\r\n")
    let u := requestConn (utf8 "GET / HTTP/2.0\r\n\r\n")
    SameAnswer (fileHandler c (Duplex Wire Sink) b!"/srv" fun _ => []) (fun _ => []) s u sampleFs := by
  intro inst s u
  have hl : RawLine b!"GET / HTTP/1.1" := ⟨by decide, by unfold HasCrLf; decide, isText_ascii (by decide)⟩
  have hl' : RawLine b!"GET / HTTP/2.0" := ⟨by decide, by unfold HasCrLf; decide, isText_ascii (by decide)⟩
  have hv : RequestLine b!"GET / HTTP/2.0" .Get b!"/" 2 0 :=
    (requestLine_ok_iff (by decide) .Get b!"/" ⟨2, 0⟩).1 (by decide +kernel)
  have h1 : HeadOf c (trace s) b!"GET / HTTP/1.1" [] [] := by
    refine ⟨[], hl, by simp, ?_, .nil, by simp, ?_⟩
    · have : trace s = (blockBytes [b!"GET / HTTP/1.1"]).map Ev.byte ++ [] := by decide +kernel
      rw [this]; exact delivers_map _ _ _
    · rintro v ⟨pre, k, post, e, _⟩
      simp at e
  have h2 : HeadOf c (trace u) b!"GET / HTTP/2.0" [] [] := by
    refine ⟨[], hl', by simp, ?_, .nil, by simp, ?_⟩
    · have : trace u = (blockBytes [b!"GET / HTTP/2.0"]).map Ev.byte ++ [] := by decide +kernel
      rw [this]; exact delivers_map _ _ _
    · rintro v ⟨pre, k, post, e, _⟩
      simp at e
  exact C116_version_partial duplex_readsApart (duplex_reliable (sink_reliable c)) (fun _ _ h => h) _
    (fileHandler_onlyReads b!"/srv" fun _ => []) (fileHandler_byContent _ _) (fun _ => []) s u sampleFs
    (by simp [s, requestConn]) (by simp [u, requestConn]) .Get b!"/" _ _ 1 1 2 0 [] [] root_line hv h1 h2

/-- Witness for `C115_first_partial`: a PUT with a body, alone and followed by another request. -/
example (c : Cfg) : let _ := asciiCase
    let s := requestConn (utf8 "PUT /a HTTP/1.1\r\ncontent-length: 3\r\n\r\nnew")
    let u := requestConn (utf8 "PUT /a HTTP/1.1\r\ncontent-length: 3\r\n\r\nnewGET /a HTTP/1.1\r\n\r\n")
    SameAnswer (fileHandler c (Duplex Wire Sink) b!"/srv" fun _ => []) (fun _ => []) s u sampleFs := by
  intro inst s u
  have hhead : requestHead .Put b!"/a" [(b!"content-length", b!"3")] = b!"PUT /a HTTP/1.1\r\ncontent-length: 3\r\n\r\n" := by
    decide +kernel
  have hlen : LengthText b!"3" 3 := lengthText_iff.1 (by decide +kernel)
  have hf : FramedBy [(b!"content-length", b!"3")] (.limited b!"new".length) :=
    .limited (v := b!"3") (by decide) (by simp) hlen
  refine C115_first_partial duplex_readsApart (duplex_reliable (sink_reliable c)) (fun _ _ h => h) _
    (fileHandler_onlyReads b!"/srv" fun _ => []) (fileHandler_byContent _ _) (fun _ => []) s u sampleFs
    (by simp [s, requestConn]) (by simp [u, requestConn]) .Put b!"/a" ⟨[(b!"content-length", b!"3")]⟩
    ⟨by simp, isText_ascii (by decide), by decide, by decide, by unfold HasCrLf; decide⟩
    ⟨by unfold SortedNames; decide, by decide +kernel, fun kv hkv => by
      simp only [List.mem_cons, List.not_mem_nil, or_false] at hkv
      rcases hkv with rfl
      exact ⟨isText_ascii (by decide), by decide, by unfold HasCrLf; decide, by rw [← startsBlank_iff]; decide,
        isText_ascii (by decide), by unfold HasCrLf; decide⟩⟩
    (fun v hv => by
      simp only [List.mem_cons, List.not_mem_nil, or_false, Prod.mk.injEq] at hv
      rw [hv.2]; exact ⟨3, hlen⟩) (b!"new".map .byte) (b!"newGET /a HTTP/1.1\r\n\r\n".map .byte) ?_ ?_
    (.inr ⟨b!"new", [], b!"GET /a HTTP/1.1\r\n\r\n".map .byte, .limited hf (by simp), .limited hf (by decide)⟩)
  · have : trace s = b!"PUT /a HTTP/1.1\r\ncontent-length: 3\r\n\r\n".map .byte ++ b!"new".map .byte := by decide +kernel
    rw [hhead, this]; exact delivers_map _ _ _
  · have : trace u = b!"PUT /a HTTP/1.1\r\ncontent-length: 3\r\n\r\n".map .byte ++
        b!"newGET /a HTTP/1.1\r\n\r\n".map .byte := by decide +kernel
    rw [hhead, this]; exact delivers_map _ _ _

end HttpIo
