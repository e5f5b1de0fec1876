import Verif.Props.EndToEnd
import Verif.Props.Breaks
import Verif.Model.TlsStream
import Verif.Props.Files
import Verif.Props.CutUpload
import Verif.Props.Framing

/-! C111, C112: the end of a response that comes over TLS. -/

namespace HttpIo
open Spec

theorem tlsInput_trace (cut : Option Err) (notified : Bool) (records : List Bytes) :
    trace (tlsInput cut notified records) =
      records.flatten.map .byte ++ if notified then [] else cut.toList.map .fault := by
  unfold tlsInput
  rw [Wire.trace_eq, List.flatMap_append]
  congr 1
  · induction records with
    | nil => rfl
    | cons r rs ih => simp_all [WireEv.events]
  · split
    · rfl
    · cases cut <;> rfl

section
variable [CaseMap] {c c' : Cfg}

/-- A response head that is delivered, and what the body is then, whatever follows. -/
theorem response_plain {ρ : Type} [LawfulReader ρ] [ZeroReader ρ] (d : ρ) (status : HttpStatus) (headers : HttpHeaders)
    (t : List Ev) (hh : SendableHeaders headers.entries) (hl : LengthOk headers.entries)
    (hc : (b!"transfer-encoding", b!"chunked") ∉ headers.entries)
    (hd : trace d = (responseHead status.display headers.entries).map .byte ++ t) :
    ∃ r d' enc len, HttpResponse.deserialize c d = (.ok r, d') ∧ r.status = HttpStatus.fromCode status.toCode ∧ r.headers = headers ∧
      r.body = HttpBody.new c enc len (BufReader.new c d') ∧ enc ≠ some b!"chunked" ∧
      trace (BufReader.new c d') = t ∧
      ((∀ v, (b!"content-length", v) ∉ headers.entries) → len = none) ∧
      (∀ v n, (b!"content-length", v) ∈ headers.entries → LengthText v n → len = some n) := by
  have hdel : Delivers c (trace d) (responseHead status.display headers.entries) t := by
    rw [hd]; exact delivers_map c _ _
  obtain ⟨r, s', f1, f2, _, f3, f4, f5, f6⟩ := response_delivered c d status headers _ hh hl hdel
  obtain ⟨_, enc, len, hnew⟩ := response_under f1
  have hne : enc ≠ some b!"chunked" := by
    rintro rfl
    rw [hnew, show framing (HttpBody.new c (some b!"chunked") len (BufReader.new c s')) = .chunked by
      unfold HttpBody.new; rw [if_pos rfl]; rfl] at f4
    cases f4 with
    | chunked h => exact hc h
  refine ⟨r, s', enc, len, f1, f2, f3, hnew, hne, by rw [BufReader.trace_new, f6], ?_, ?_⟩
  · intro hno
    have h := framedBy_unique hh.1 f4 (.tilClose hc hno)
    rw [hnew] at h
    unfold HttpBody.new at h
    rw [if_neg hne] at h
    cases len with
    | some n => simp [framing] at h
    | none => rfl
  · intro v n hv hn
    have h := framedBy_unique hh.1 f4 (.limited hc hv hn)
    rw [hnew] at h
    unfold HttpBody.new at h
    rw [if_neg hne] at h
    cases len with
    | none => simp [framing] at h
    | some k => simp only [framing, Framing.limited.injEq] at h; rw [h]

/-- What a body read from a TLS stream that ends without notice gives. -/
theorem body_unnotified (enc : Option Bytes) (henc : enc ≠ some b!"chunked") (len : Option Nat) {ρ : Type} [LawfulReader ρ]
    [ZeroReader ρ] (u : ρ) (cut : Option Err) (bs : Bytes)
    (hu : trace u = bs.map .byte ++ if SslServerStream.notifies then [] else cut.toList.map .fault) :
    (∀ n, len = some n → n ≤ bs.length → Yields (HttpBody.new c enc len u) (bs.take n)) ∧
    (cut = none → len = none → Yields (HttpBody.new c enc len u) bs) ∧
    (∀ e, cut = some e → (∀ n, len = some n → bs.length < n) → FailsAfter (HttpBody.new c enc len u) bs e) := by
  refine ⟨?_, ?_, ?_⟩
  · rintro n rfl hn
    exact C29_yields c enc henc n u bs _ hu (.inr hn)
  · rintro rfl rfl
    unfold HttpBody.new
    rw [if_neg henc]
    exact yields_of_trace (by simpa [HttpBody.trace_tilClose, SslServerStream.notifies] using hu)
  · rintro e rfl hn
    exact C92_plain_partial c enc henc len u bs _ [] (by simpa [SslServerStream.notifies] using hu) hn

variable {σ : Type} [LawfulWriter σ]
  {η τ ρ' ε : Type} [LawfulReader τ] [ZeroReader τ] [LawfulWriter τ] [LawfulReader ρ'] [ZeroReader ρ']

/-- The whole way there and back over TLS, as `C55_end_to_end`: the server answers with `r`, and its stream is dropped; the
client reads what its TLS library gives it of that, in any records. It gets the status and the headers of `r`, and:
if `r` declares no more than it has, exactly as much of the body as declared; if it declares no length and the library is
not strict, the whole body. Missing for the full property: with a strict library, a response that declares no length or
more than it has; see `C111_unnotified_false`. -/
theorem C111_received_partial {Q : τ → Prop} (hra : ReadsApart τ) (hrel : Reliable c' Q) (hkept : ∀ s n, Q s → Q (read s n).2)
    (d d1 : Duplex Wire σ) (hd : sent d.wr = []) (u : Url) (host : Bytes) (m : HttpMethod)
    (b : HttpRequestBuilder c) (hb : HttpRequestBuilder.new c (HttpUrl.tryFrom u) m = .ok b) (hhost : u.host = some host)
    (htext : IsText host ∧ ¬ HasCrLf host) (htarget : SendableTarget (requestTarget { u with query := none }))
    (adds : List (Bytes × Bytes)) (ha : ∀ kv ∈ adds, Addable kv)
    (o o' : OutgoingRequest c (Duplex Wire σ)) (hsend : (adds.foldl (fun b kv => b.addHeader kv.1 kv.2) b).send d = .ok o)
    (cs : List WCall) (hlen : ∀ buf ∈ written cs, buf.length < 2 ^ 64) (hp : perform o cs = (true, o'))
    (hcomp : o'.complete = .ok d1)
    (h : Handler c' η τ ρ' ε) (ho : OnlyReads h) (errText : Err → Bytes) (self : η) (s : τ) (rest : List Ev)
    (hQ : Q s) (hs0 : sent s = []) (hs : trace s = (wire d1.wr).map .byte ++ rest) (cut : Option Err) :
    ∃ body, (Hands m → Yields body (written cs).flatten) ∧
      ∀ r, AnswerIs h (handled h m (requestTarget { u with query := none }) body self).1 r →
        r.version = ⟨1, 1⟩ → SendableHeaders r.headers.entries → LengthOk r.headers.entries →
        (utf8 "transfer-encoding", utf8 "chunked") ∉ r.headers.entries →
        ∀ bs t', Delivers c' (trace r.body) bs t' → Ended c' t' →
        (h.serveOne errText (.ok s) self).1 = .ok () ∧
        ∃ s', (h.serveOne errText (.ok s) self).2.1 = some s' ∧
          ∀ records, records.flatten = sent s' → d.rd = tlsInput cut SslServerStream.notifies records →
            ∃ r' d2, o'.finish = (.ok r', d2) ∧ r'.status.toCode = r.status.toCode ∧ r'.headers = r.headers ∧
              (∀ v n, (utf8 "content-length", v) ∈ r.headers.entries → LengthText v n → n ≤ bs.length →
                Yields r'.body (bs.take n)) ∧
              (cut = none → (∀ v, (utf8 "content-length", v) ∉ r.headers.entries) → Yields r'.body bs) ∧
              (∀ e, cut = some e → (∀ v n, (utf8 "content-length", v) ∈ r.headers.entries → LengthText v n → bs.length < n) →
                FailsAfter r'.body bs e) := by
  obtain ⟨_, body, h1, h2, _⟩ := C55_request d d1 hd u host m b hb hhost htext htarget adds ha o o' hsend cs hlen hp hcomp
    h errText self s rest hs
  refine ⟨body, h1, ?_⟩
  rw [show utf8 "transfer-encoding" = b!"transfer-encoding" by decide +kernel, show utf8 "chunked" = b!"chunked" by decide +kernel,
    show utf8 "content-length" = b!"content-length" by decide +kernel]
  intro r hr hv hh hl hc bs t' hdel hend
  obtain ⟨g1, s', g2, _, g3⟩ := serve_succeeds hra hrel hkept h ho errText s self hQ r (h2 r hr) hv bs t' hdel hend
  refine ⟨g1, s', g2, fun records hrec hback => ?_⟩
  have hk := duplex_kept (σ := σ) d.rd
  have k1 : (fun d' : Duplex Wire σ => d'.rd = d.rd) d1 := by
    have a1 := hk.serialize (r := (adds.foldl (fun b kv => b.addHeader kv.1 kv.2) b).request) (s := d) (c := c) rfl
    rw [show (adds.foldl (fun b kv => b.addHeader kv.1 kv.2) b).request.serialize (BufWriter.new c d) = .ok o from hsend] at a1
    have a2 := hk.outgoing.perform (cs := cs) a1
    rw [hp] at a2
    have a3 := hk.complete a2
    rw [hcomp] at a3
    exact a3
  have k2 : trace d1 = (responseHead r.status.display r.headers.entries).map .byte ++ (bs.map .byte ++
      if SslServerStream.notifies then [] else cut.toList.map .fault) := by
    rw [Duplex.trace_eq, k1, hback, tlsInput_trace, hrec, g3, hs0, List.nil_append]
    simp
  obtain ⟨r', d2, enc, len, e1, e2, e3, e4, e5, e6, e7, e8⟩ := response_plain (c := c) d1 r.status r.headers _ hh hl hc k2
  obtain ⟨f1, f2, f3⟩ := body_unnotified (c := c) enc e5 len _ cut bs e6
  refine ⟨r', d2, by unfold OutgoingRequest.finish; rw [hcomp]; exact e1, by rw [e2, C01_code_lossless], e3, ?_, ?_, ?_⟩
  · intro v n hv' hn hle
    rw [e4]; exact f1 n (e8 v n hv' hn) hle
  · intro hs' hno
    rw [e4]; exact f2 hs' (e7 hno)
  · intro e hs' hno
    rw [e4]
    refine f3 e hs' fun n hn => ?_
    by_cases hex : ∃ v, (b!"content-length", v) ∈ r.headers.entries
    · obtain ⟨v, hv'⟩ := hex
      obtain ⟨k, hk'⟩ := hl v hv'
      have := e8 v k hv' hk'
      rw [hn, Option.some.injEq] at this
      subst this
      exact hno v n hv' hk'
    · rw [e7 (fun v hv' => hex ⟨v, hv'⟩)] at hn
      simp at hn

end

/-- False in general: with a strict library, a client never sees the end of a response that declares no length, such as the
documented file server's answer to a GET: after the whole file it gets an error. -/
theorem C111_unnotified_false (c : Cfg) : let _ := asciiCase
    let served := (fileHandler c (Duplex Wire Sink) b!"/srv" fun _ => []).serveOne (fun _ => [])
      (.ok (requestConn b!"GET /a HTTP/1.1\r\n\r\n")) sampleFs
    sampleFs [b!"srv", b!"a"] = some (.file b!"old") ∧ served.1 = .ok () ∧
    (match served.2.1 with
      | some s =>
        match HttpResponse.deserialize c (tlsInput (some (.io .unexpectedEof)) SslServerStream.notifies [sent s]) with
        | (.ok r, _) => decide (r.status = .OK ∧ (calls r.body [9, 9]).1 = [.ok b!"old", .error (.io .unexpectedEof)])
        | _ => false
      | none => false) = true := by
  intro inst served
  refine ⟨by decide, ?_, ?_⟩ <;> rcases c with ⟨_ | _⟩ <;> decide +kernel

/-! ### C112 -/

/-- A reader that has seen the end has seen the whole trace. -/
theorem trace_whole {σ : Type} [LawfulReader σ] {s : σ} {sizes : List Nat} (hpos : Positive sizes)
    {rs later : List (Except Err Bytes)} {d : Bytes} (hc : (calls s sizes).1 = rs ++ .ok [] :: later) (hd : Pieces rs d) :
    trace s = d.map .byte := by
  have hcut := calls_take s sizes (rs.length + 1)
  rw [hc, show (rs ++ .ok [] :: later).take (rs.length + 1) = rs ++ [.ok []] by
    rw [List.take_append, List.take_of_length_le (by omega)]; simp] at hcut
  obtain ⟨q1, q2, _⟩ := calls_seen s (sizes := sizes.take (rs.length + 1)) fun n hn => hpos n (List.mem_of_mem_take hn)
  have q3 := q2 (by rw [hcut]; simp)
  rw [q3, List.append_nil, hcut] at q1
  obtain ⟨xs, rfl, _, rfl⟩ := hd
  rw [q1, seen_append]
  have : ∀ xs : List Bytes, seen (xs.map .ok) = xs.flatten.map .byte := by
    intro xs
    induction xs with
    | nil => rfl
    | cons x xs ih => simp [seen, ih]
  simp [this, seen]

theorem delivers_before {c : Cfg} {p h : Bytes} {e : Err} {t : List Ev} (he : ¬ Retried c e)
    (hd : Delivers c (p.map .byte ++ [.fault e]) h t) : ∃ p', p = h ++ p' ∧ t = p'.map .byte ++ [.fault e] := by
  generalize hx : p.map Ev.byte ++ [Ev.fault e] = x at hd
  induction hd generalizing p with
  | nil => exact ⟨p, rfl, hx.symm⟩
  | byte b h ih =>
    cases p with
    | nil => simp at hx
    | cons y p =>
      simp only [List.map_cons, List.cons_append, List.cons.injEq, Ev.byte.injEq] at hx
      obtain ⟨p', rfl, h2⟩ := ih hx.2
      exact ⟨p', by rw [hx.1]; rfl, h2⟩
  | retry h2 _ =>
    cases p with
    | nil => simp at hx; obtain ⟨rfl, _⟩ := hx; exact absurd h2 he
    | cons y p => simp at hx

section
variable [CaseMap] {σ : Type} [LawfulReader σ] [ZeroReader σ]

/-- Some bytes of a response reach a client, with any failures between them. If the client takes them for a response, no
shortened head was accepted. -/
theorem response_cut (c : Cfg) (s s' : σ) (status : HttpStatus) (headers : HttpHeaders) (more : Bytes)
    (hh : SendableHeaders headers.entries) (hl : LengthOk headers.entries)
    (hp : bytesOf (trace s) <+: responseHead status.display headers.entries ++ more)
    (r : HttpResponse c (BufReader c σ)) (h : HttpResponse.deserialize c s = (.ok r, s')) :
    r.status = HttpStatus.fromCode status.toCode ∧ r.headers = headers ∧ FramedBy headers.entries (framing r.body) ∧
    bytesOf (trace s') <+: more ∧ Delivers c (trace s) (responseHead status.display headers.entries) (trace s') := by
  obtain ⟨line, lines, h1, h2, h3, h4, h5⟩ := C10_response c s s' r h
  rw [delivers_bytesOf h3] at hp
  obtain ⟨z, hz⟩ := hp
  have e : ∀ x : Bytes, bytesOf (x.map .byte) = x := fun x => by simpa [bytesOf] using bytesOf_map x []
  let u : Evs := ⟨(responseHead status.display headers.entries ++ more).map .byte⟩
  obtain ⟨r1, u1, g1, _, g3, g5, g6, _, g8⟩ := h5 Evs u ((bytesOf (trace s') ++ z).map .byte) (by
    have := delivers_map c (blockBytes (line :: lines)) ((bytesOf (trace s') ++ z).map .byte)
    rw [← List.map_append, ← List.append_assoc, hz] at this
    exact this)
  obtain ⟨r2, u2, k1, k2, _, k5, k6, _, k8⟩ := response_delivered c u status headers (more.map .byte) hh hl (by
      have := delivers_map c (responseHead status.display headers.entries) (more.map .byte)
      rw [← List.map_append] at this
      exact this)
  rw [g1] at k1
  simp only [Prod.mk.injEq, Res.ok.injEq] at k1
  obtain ⟨rfl, rfl⟩ := k1
  rw [g8] at k8
  have hrest : bytesOf (trace s') ++ z = more := by
    have := congrArg bytesOf k8
    rwa [e, e] at this
  refine ⟨g3.symm.trans k2, g5.symm.trans k5, by rw [← g6]; exact k6, ⟨z, hrest⟩, ?_⟩
  have : blockBytes (line :: lines) = responseHead status.display headers.entries := by
    rw [← hrest, ← List.append_assoc, List.append_left_inj] at hz
    exact List.append_cancel_right hz
  rwa [← this]

/-- A response is sent over TLS, and the transport is cut at any point; the client's library is strict. If the client takes
what it gets for a response, then its status and headers are those that were sent; and if the client sees the end of the
body before it sees an error, then it has all of it: the data of all chunks, or as many bytes as declared. A body that
lasts until the end of the connection is never taken for a whole one. Missing for the full property: libraries that are
not strict; see `C112_lenient_false`. -/
theorem C112_strict_partial (c : Cfg) (e : Err) (hcut : ¬ Retried c e) (records : List Bytes) (s' : Wire) (status : HttpStatus) (headers : HttpHeaders)
    (more : Bytes) (hh : SendableHeaders headers.entries) (hl : LengthOk headers.entries)
    (hp : records.flatten <+: responseHead status.display headers.entries ++ more)
    (r : HttpResponse c (BufReader c Wire))
    (h : HttpResponse.deserialize c (tlsInput (some e) false records) = (.ok r, s')) :
    r.status.toCode = status.toCode ∧ r.headers = headers ∧
    ∀ sizes, Positive sizes → ∀ rs later d, (calls r.body sizes).1 = rs ++ .ok [] :: later → Pieces rs d →
      (FramedBy headers.entries .chunked → ∀ chs last rest, (∀ ch ∈ chs, ch.Sized) → UnsignedText 16 last 0 →
        more = chunkedBytes chs last ++ rest → d = chunkedData chs) ∧
      (∀ n, FramedBy headers.entries (.limited n) → n ≤ more.length ∧ d = more.take n) ∧
      ¬ FramedBy headers.entries .tilClose := by
  have htr := tlsInput_trace (some e) false records
  rw [show (if false then [] else (some e).toList.map Ev.fault) = [Ev.fault e] from rfl] at htr
  obtain ⟨h1, h2, h3, h4, h5⟩ := response_cut c _ s' status headers more hh hl
    (by rw [htr, bytesOf_map]; simpa [bytesOf] using hp) r h
  refine ⟨by rw [h1, C01_code_lossless], h2, fun sizes hpos rs later d hc hd => ?_⟩
  have hw := trace_whole hpos hc hd
  rw [htr] at h5
  obtain ⟨p', _, hs'⟩ := delivers_before hcut h5
  rw [hs', bytesOf_map] at h4
  simp only [bytesOf, List.append_nil] at h4
  obtain ⟨_, enc, len, hb⟩ := response_under h
  have hub : trace (BufReader.new c s') = p'.map .byte ++ [.fault e] := by rw [BufReader.trace_new, hs']
  have nofault : ∀ e, Ev.fault e ∉ trace r.body := by
    intro e; rw [hw]; simp
  refine ⟨fun hf chs last rest hsz hlast hmore => ?_, fun n hf => ?_, fun hf => ?_⟩
  · have hf' := framedBy_unique hh.1 h3 hf
    have htr : trace r.body = chunkT c [] none (trace s') := by
      rw [hb] at hf' ⊢
      by_cases he : enc = some b!"chunked"
      · subst he; rw [chunked_new, HttpBody.trace_chunked, HttpChunkedBody.trace_new, BufReader.trace_new]
      · unfold HttpBody.new at hf'; rw [if_neg he] at hf'; cases len <;> simp [framing] at hf'
    rw [hw] at htr
    refine chunkT_whole (more := rest) htr.symm ?_ hsz hlast
    rw [hs', bytesOf_map, ← hmore]
    simpa [bytesOf] using h4
  · have hf' := framedBy_unique hh.1 h3 hf
    have hbody : r.body = .Limited ⟨BufReader.new c s', n⟩ := by
      rw [hb] at hf' ⊢
      unfold HttpBody.new at hf' ⊢
      by_cases he : enc = some b!"chunked"
      · rw [if_pos he] at hf'; simp [framing] at hf'
      · rw [if_neg he] at hf' ⊢
        cases len with
        | none => simp [framing] at hf'
        | some k => simp only [framing, Framing.limited.injEq] at hf'; rw [hf']
    rw [hbody, HttpBody.trace_limited] at hw nofault
    dsimp only at hw nofault
    rw [hub] at hw nofault
    by_cases hn : n ≤ p'.length
    · obtain ⟨z, rfl⟩ := h4
      refine ⟨by simp; omega, ?_⟩
      have el : limitTrace n (p'.map Ev.byte ++ [.fault e]) = (p'.take n).map .byte := by
        have hk : p'.map Ev.byte = (p'.take n).map .byte ++ (p'.drop n).map .byte := by
          rw [← List.map_append, List.take_append_drop]
        rw [hk, List.append_assoc, limitTrace_append _ _ _ (by simp; omega), List.length_take, Nat.min_eq_left hn, Nat.sub_self,
          limitTrace_zero, List.append_nil]
      rw [el] at hw
      rw [List.take_append_of_le_length hn]
      exact (map_byte_inj hw).symm
    · obtain ⟨k, hk⟩ : ∃ k, n - p'.length = k + 1 := ⟨n - p'.length - 1, by omega⟩
      rw [limitTrace_append _ _ _ (by omega), hk, limitTrace_fault] at nofault
      exact absurd (by simp) (nofault e)
  · have hf' := framedBy_unique hh.1 h3 hf
    have hbody : r.body = .ReadTilClose (BufReader.new c s') := by
      rw [hb] at hf' ⊢
      unfold HttpBody.new at hf' ⊢
      by_cases he : enc = some b!"chunked"
      · rw [if_pos he] at hf'; simp [framing] at hf'
      · rw [if_neg he] at hf' ⊢
        cases len with
        | none => rfl
        | some k => simp [framing] at hf'
    rw [hbody, HttpBody.trace_tilClose, hub] at nofault
    exact nofault e (by simp)

/-- False of libraries that are not strict: of every response that is not chunked, cut anywhere in its body, the client
sees the end after what has come. -/
theorem C112_lenient_false (c : Cfg) (records : List Bytes) (status : HttpStatus) (headers : HttpHeaders) (part : Bytes)
    (hh : SendableHeaders headers.entries) (hl : LengthOk headers.entries)
    (hc : ¬ FramedBy headers.entries .chunked) (hr : records.flatten = responseHead status.display headers.entries ++ part) :
    ∃ r s', HttpResponse.deserialize c (tlsInput none false records) = (.ok r, s') ∧ r.status.toCode = status.toCode ∧
      r.headers = headers ∧ ((∀ n, FramedBy headers.entries (.limited n) → part.length < n) → Yields r.body part) := by
  have hc' : (b!"transfer-encoding", b!"chunked") ∉ headers.entries := fun h => hc (.chunked h)
  have htr := tlsInput_trace none false records
  rw [show (if false then [] else (none : Option Err).toList.map Ev.fault) = ([] : List Ev) from rfl, List.append_nil, hr] at htr
  obtain ⟨r, s', h1, h2, h3, h4, h5⟩ := response_closed (c := c) _ status headers part hh hl hc' htr
  refine ⟨r, s', h1, by rw [h2, C01_code_lossless], h3, fun hn => ?_⟩
  by_cases hex : ∃ v, (b!"content-length", v) ∈ headers.entries
  · obtain ⟨v, hv⟩ := hex
    obtain ⟨n, hn'⟩ := hl v hv
    have h6 := h5 v n hv hn'
    have := hn n (.limited hc' hv hn')
    rwa [List.take_of_length_le (by omega)] at h6
  · exact h4 fun v hv => hex ⟨v, hv⟩

end

/-- The head of the examples: five bytes declared. -/
def fiveHeaders : HttpHeaders := ⟨[(b!"content-length", b!"5")]⟩

/-- Witness for `C112_strict_partial` and `C112_lenient_false`: of five bytes, two have come. -/
example (c : Cfg) : let _ := asciiCase
    let head := b!"HTTP/1.1 200 OK\r\ncontent-length: 5\r\n\r\n"
    responseHead HttpStatus.OK.display fiveHeaders.entries = head ∧
    [head ++ b!"ab"].flatten <+: head ++ b!"abcde" ∧
    (match HttpResponse.deserialize c (tlsInput (some (.io .unexpectedEof)) false [head ++ b!"ab"]), HttpResponse.deserialize c (tlsInput none false [head ++ b!"ab"]) with
      | (.ok r, _), (.ok r', _) => decide ((calls r.body [9, 9]).1 = [.ok b!"ab", .error (.io .unexpectedEof)] ∧
          (calls r'.body [9, 9]).1 = [.ok b!"ab", .ok []])
      | _, _ => false) = true := by
  intro inst head
  refine ⟨by decide +kernel, ⟨b!"cde", by simp [head]⟩, ?_⟩
  rcases c with ⟨_ | _⟩ <;> decide +kernel

/-- Answers every GET with five bytes, declared. -/
def fiveHandler (c : Cfg) [CaseMap] : Handler c Unit (Duplex Wire Sink) Wire Err :=
  { Handler.defaults c Unit (Duplex Wire Sink) Wire Err (fun _ => ServerResponse.fromString c .InternalServerError []) with
    get := fun _ self => (.ok { HttpResponse.new c .OK (.B ⟨[.data b!"hello"]⟩) with headers := fiveHeaders }, self) }

/-- Witness for `C111_received_partial`: a GET from a handler that declares the length; the client reads the answer through
a strict library in two records. The hypotheses hold, and the whole run is evaluated. -/
example : let _ := asciiCase
    let u : Url := ⟨b!"https", some b!"h", none, b!"/up", some b!"q", none, [], none⟩
    let answer := b!"HTTP/1.1 200 OK\r\ncontent-length: 5\r\n\r\nhello"
    let d : Duplex Wire Sink :=
      ⟨tlsInput (some (.io .unexpectedEof)) SslServerStream.notifies [answer.take 9, answer.drop 9], ⟨[], 0, [.accept 3]⟩⟩
    let onWire := b!"GET /up HTTP/1.1\r\naccept: */*\r\nhost: h\r\nuser-agent: http_io\r\n\r\n"
    IsText b!"h" ∧ ¬ HasCrLf b!"h" ∧ SendableTarget (requestTarget { u with query := none }) ∧
    (match HttpRequestBuilder.new ⟨true⟩ (HttpUrl.tryFrom u) .Get with
      | .ok b =>
        match b.send d with
        | .ok o =>
            match o.complete, o.finish with
            | .ok d1, (.ok r, _) => decide (wire d1.wr = onWire ∧ r.status = .OK ∧
                (calls r.body [99, 99]).1 = [.ok b!"hello", .ok []])
            | _, _ => false
        | _ => false
      | _ => false) = true ∧
    ((fiveHandler ⟨false⟩).serveOne (fun _ => []) (.ok (requestConn onWire)) ()).2.1.map sent =
      some [answer.take 9, answer.drop 9].flatten := by
  intro inst u answer d onWire
  exact ⟨isText_ascii (by decide), by unfold HasCrLf; decide,
    ⟨by decide, isText_ascii (by decide), by decide, by decide, by unfold HasCrLf; decide⟩, by decide +kernel, by decide +kernel⟩

end HttpIo
