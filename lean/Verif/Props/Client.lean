import Verif.Lemmas.Client
import Verif.Lemmas.ReadKept
import Verif.Props.Message
import Verif.Props.Request

/-! C42, C43: sending a request and getting its response. -/

namespace HttpIo
open Spec

/-! ### C42 -/

section
variable [CaseMap] {c : Cfg} {ρ σ τ : Type} [LawfulReader ρ] [LawfulWriter σ]

/-- Whatever the transport accepts per call: if the head was sent and all the caller's writes succeeded, `finish`
either fails with nothing read, or reads the response when the transport has put on the wire exactly what was sent
before, the head, and (for methods with a body) one chunk for each non-empty write and the end of the body.
Missing for the full property: callers that go on after a failed write (for which it is false, `C42_failed_write_false`). -/
theorem C42_on_wire_partial (r : HttpRequest c τ) (hv : r.version = ⟨1, 1⟩) (d : Duplex ρ σ) (o o' : OutgoingRequest c (Duplex ρ σ))
    (h : r.serialize (BufWriter.new c d) = .ok o) (cs : List WCall) (hlen : ∀ buf ∈ written cs, buf.length < 2 ^ 64)
    (hp : perform o cs = (true, o')) :
    (∃ e d', o'.finish = (.err e, d') ∧ d'.rd = d.rd) ∨
    (∃ d', o'.finish = HttpResponse.deserialize c d' ∧ d'.rd = d.rd ∧
      ((r.method = .Delete ∨ r.method = .Post ∨ r.method = .Put) → ∃ chs, ChunksFor chs (written cs) ∧
        wire d'.wr = sent d.wr ++ requestHead r.method r.uri r.headers.entries ++ chunkedBytes chs (utf8 "0") ++ [13, 10]) ∧
      (¬ (r.method = .Delete ∨ r.method = .Post ∨ r.method = .Put) → written cs = [] ∧
        wire d'.wr = sent d.wr ++ requestHead r.method r.uri r.headers.entries)) := by
  have hk := duplex_kept (σ := σ) d.rd
  have h1 := hk.serialize (r := r) (s := d) rfl
  rw [h] at h1
  have h2 := hk.outgoing.perform (cs := cs) h1
  rw [hp] at h2
  have h3 := hk.complete h2
  obtain ⟨g1, g2⟩ := C18_serialized r d hv o h
  cases hc : o'.complete with
  | error x =>
    obtain ⟨e, d'⟩ := x
    rw [hc] at h3
    exact .inl ⟨e, d', by unfold OutgoingRequest.finish; rw [hc], h3⟩
  | ok d' =>
    rw [hc] at h3
    obtain ⟨k1, k2, k3⟩ := sent_request hlen hp hc
    refine .inr ⟨d', by unfold OutgoingRequest.finish; rw [hc], h3, ?_, ?_⟩
    · intro hm
      obtain ⟨b, hb⟩ := g2.2 hm
      obtain ⟨chs, k4, k5⟩ := k3 b hb
      refine ⟨chs, k4, ?_⟩
      rw [hb] at g1
      rw [show utf8 "0" = b!"0" by decide +kernel]
      rw [show wire d'.wr = wire d' from rfl, k1, k5, show sent b.socket = outgoingSent (.WithBody b) from rfl, g1]
      rfl
    · intro hm
      cases o with
      | WithBody b => exact absurd (g2.1 ⟨b, rfl⟩) hm
      | NoBody s =>
        obtain ⟨k4, k5⟩ := k2 s rfl
        refine ⟨k5, ?_⟩
        rw [show wire d'.wr = wire d' from rfl, k1, k4, show sent s = outgoingSent (.NoBody (c := c) s) from rfl, g1]
        rfl

omit [CaseMap] [LawfulReader ρ] in
/-- Until then nothing is read: not when sending the head fails, nor by any calls on the outgoing request, successful
or not, nor when the request is dropped. -/
theorem C42_nothing_read (r : HttpRequest c τ) (d : Duplex ρ σ) (cs : List WCall) :
    match r.serialize (BufWriter.new c d) with
    | .error (_, d') => d'.rd = d.rd
    | .ok o => (attempt o cs).2.dropped.rd = d.rd := by
  have hk := duplex_kept (σ := σ) d.rd
  have h1 := hk.serialize (r := r) (s := d) rfl
  cases h : r.serialize (BufWriter.new c d) with
  | error x => rw [h] at h1; exact h1
  | ok o =>
    rw [h] at h1
    exact hk.droppedRequest (hk.outgoing.attempt (cs := cs) h1)

omit [CaseMap] [LawfulReader ρ] in
theorem emitted_chunk {buf : Bytes} (h0 : buf ≠ []) (hlen : buf.length < 2 ^ 64) :
    ∃ ch : Chunk, ch.WellFormed ∧ ch.data = buf ∧ ch.bytes = emitted buf := by
  obtain ⟨chs, ⟨h1, h2⟩, h3⟩ := chunksFor [buf] (by simpa using hlen)
  simp only [ne_eq, h0, not_false_eq_true, List.filter_cons, decide_true, List.filter_nil, ite_true] at h2
  match chs, h2 with
  | [ch], h2 => exact ⟨ch, h1 ch (by simp), by simpa using h2, by simpa using h3.symm⟩

omit [CaseMap] [LawfulReader ρ] in
theorem attempt_torn {b : OutgoingBody c σ} {cs : List WCall} (hlen : ∀ buf ∈ written cs, buf.length < 2 ^ 64) :
    ∃ b' x, (attempt (OutgoingRequest.WithBody b) cs).2 = .WithBody b' ∧
      Torn cs (attempt (OutgoingRequest.WithBody b) cs).1 x ∧ sent b'.socket = sent b.socket ++ x := by
  induction cs generalizing b with
  | nil => exact ⟨b, [], rfl, .nil, by simp⟩
  | cons call cs ih =>
    cases call with
    | flush =>
      rcases hw : flush (OutgoingRequest.WithBody b) with ⟨r, o'⟩
      have ho : o' = .WithBody b.flushImpl.2 := by
        have := congrArg Prod.snd hw
        exact this.symm
      subst ho
      obtain ⟨b', x, h1, h2, h3⟩ := ih (b := b.flushImpl.2) hlen
      refine ⟨b', x, ?_, ?_, ?_⟩
      · simp only [attempt]; rw [hw]; exact h1
      · simp only [attempt]; rw [hw]; exact .flush h2
      · rw [h3, show sent b.flushImpl.2.socket = sent b.socket from ?_]
        exact LawfulWriter.flush_sent b.socket
    | write buf =>
      rcases hb : b.writeImpl buf with ⟨r, b1⟩
      have hw : write (OutgoingRequest.WithBody b) buf = (r, .WithBody b1) := by
        show ((b.writeImpl buf).1, OutgoingRequest.WithBody (b.writeImpl buf).2) = _
        rw [hb]
      obtain ⟨_, p, g1, g2, g3⟩ := OutgoingBody.write_sent hb
      obtain ⟨b', x, h1, h2, h3⟩ := ih (b := b1) fun buf h => hlen buf (by simp [written, h])
      refine ⟨b', p ++ x, ?_, ?_, ?_⟩
      · simp only [attempt]; rw [hw]; exact h1
      · simp only [attempt]; rw [hw]
        dsimp only
        by_cases h0 : buf = []
        · subst h0
          have hr : r = .ok 0 := (congrArg Prod.fst hb).symm
          subst hr
          rw [(g3 0 rfl).1, show emitted [] = [] from rfl, List.nil_append]
          exact .empty h2
        · obtain ⟨ch, k1, rfl, k2⟩ := emitted_chunk h0 (hlen buf (by simp [written]))
          cases r with
          | ok k =>
            obtain ⟨e1, rfl⟩ := g3 k rfl
            rw [e1, ← k2]
            exact .written k1 h2
          | error e =>
            rw [← k2] at g1
            exact .failed k1 g1 h2
      · rw [h3, g2, List.append_assoc]

/-- What is on the wire when the response is read, whatever calls were made and whichever of them failed: the head, of each
write its chunk or, if it failed, a beginning of it, and the end of the body. (Methods without a body: the head.) -/
theorem C42_after_failures (r : HttpRequest c τ) (hv : r.version = ⟨1, 1⟩) (d : Duplex ρ σ) (o : OutgoingRequest c (Duplex ρ σ))
    (h : r.serialize (BufWriter.new c d) = .ok o) (cs : List WCall) (hlen : ∀ buf ∈ written cs, buf.length < 2 ^ 64) :
    (∃ e d', (attempt o cs).2.finish = (.err e, d') ∧ d'.rd = d.rd) ∨
    (∃ d', (attempt o cs).2.finish = HttpResponse.deserialize c d' ∧ d'.rd = d.rd ∧
      ((r.method = .Delete ∨ r.method = .Post ∨ r.method = .Put) → ∃ x, Torn cs (attempt o cs).1 x ∧
        wire d'.wr = sent d.wr ++ requestHead r.method r.uri r.headers.entries ++ x ++ utf8 "0\r\n\r\n") ∧
      (¬ (r.method = .Delete ∨ r.method = .Post ∨ r.method = .Put) →
        wire d'.wr = sent d.wr ++ requestHead r.method r.uri r.headers.entries)) := by
  have hk := duplex_kept (σ := σ) d.rd
  have h1 := hk.serialize (r := r) (s := d) rfl
  rw [h] at h1
  have h2 := hk.outgoing.attempt (cs := cs) h1
  have h3 := hk.complete h2
  obtain ⟨g1, g2⟩ := C18_serialized r d hv o h
  cases hc : (attempt o cs).2.complete with
  | error x =>
    obtain ⟨e, d'⟩ := x
    rw [hc] at h3
    exact .inl ⟨e, d', by unfold OutgoingRequest.finish; rw [hc], h3⟩
  | ok d' =>
    rw [hc] at h3
    refine .inr ⟨d', by unfold OutgoingRequest.finish; rw [hc], h3, ?_, ?_⟩
    · intro hm
      obtain ⟨b, rfl⟩ := g2.2 hm
      obtain ⟨b', x, k1, k2, k3⟩ := attempt_torn (b := b) hlen
      rw [k1] at hc
      obtain ⟨k4, k5⟩ := OutgoingBody.complete_ok hc
      refine ⟨x, k2, ?_⟩
      rw [show utf8 "0\r\n\r\n" = b!"0\r\n\r\n" by decide +kernel]
      rw [show wire d'.wr = wire d' from rfl, k5, k4, k3, show sent b.socket = outgoingSent (.WithBody b) from rfl, g1]
      rfl
    · intro hm
      cases o with
      | WithBody b => exact absurd (g2.1 ⟨b, rfl⟩) hm
      | NoBody s =>
        obtain ⟨s1, k1, k2⟩ : ∃ s1, (attempt (OutgoingRequest.NoBody (c := c) s) cs).2 = .NoBody s1 ∧ sent s1 = sent s := by
          clear hc h2 h3 g1 g2 h h1 hlen
          induction cs generalizing s with
          | nil => exact ⟨s, rfl, rfl⟩
          | cons call cs ih =>
            cases call with
            | write buf => exact ih s
            | flush =>
              obtain ⟨s1, e1, e2⟩ := ih s
              exact ⟨s1, e1, e2⟩
        rw [k1] at hc
        obtain ⟨k3, k4, _⟩ := sent_request (cs := []) (o := .NoBody s1) (by simp [written]) rfl hc
        rw [show wire d'.wr = wire d' from rfl, k3, (k4 s1 rfl).1, k2, show sent s = outgoingSent (.NoBody (c := c) s) from rfl, g1]
        rfl

/-- On a transport that does not fail, sending does not fail either, for any calls (which must not write if the method
has no body), and the response is read. -/
theorem C42_reliable {P : σ → Prop} (hr : Reliable c P) (r : HttpRequest c τ) (hv : r.version = ⟨1, 1⟩) (d : Duplex ρ σ)
    (hP : P d.wr) (cs : List WCall)
    (hcs : (r.method = .Delete ∨ r.method = .Post ∨ r.method = .Put) ∨ written cs = []) :
    ∃ o o' d', r.serialize (BufWriter.new c d) = .ok o ∧ perform o cs = (true, o') ∧
      o'.finish = HttpResponse.deserialize c d' ∧ d'.rd = d.rd ∧ P d'.wr ∧ wire d'.wr = sent d'.wr := by
  have hr' := duplex_reliable (ρ := ρ) hr
  obtain ⟨o, h1, h2⟩ := hr'.serialize_ok r (s := d) hP
  have hk := duplex_kept (σ := σ) d.rd
  have h3 := hk.serialize (r := r) (s := d) rfl
  rw [h1] at h3
  obtain ⟨o', h4, h5⟩ : ∃ o', perform o cs = (true, o') ∧ P o'.socketOf.wr := by
    cases o with
    | WithBody b =>
      obtain ⟨b', h4, h5⟩ := hr'.perform_ok (b := b) (cs := cs) h2
      exact ⟨.WithBody b', by rw [perform_withBody, h4], h5⟩
    | NoBody s =>
      have hw : written cs = [] := by
        rcases hcs with hm | hw
        · obtain ⟨b, hb⟩ := (C18_serialized r d hv _ h1).2.2 hm
          simp at hb
        · exact hw
      obtain ⟨h4, h5⟩ := perform_noBody (c := c) s cs
      exact ⟨.NoBody s, Prod.ext (h5.2 hw) h4, h2⟩
  have h6 := hk.outgoing.perform (cs := cs) h3
  rw [h4] at h6
  have h7 := hk.complete h6
  obtain ⟨d', h8, h9⟩ := hr'.complete_ok h5
  rw [h8] at h7
  refine ⟨o, o', d', h1, h4, by unfold OutgoingRequest.finish; rw [h8], h7, h9, ?_⟩
  cases o' with
  | NoBody s =>
    exact (sent_request (cs := []) (o := .NoBody s) (by simp [written]) rfl h8).1
  | WithBody b => exact (sent_request (cs := []) (o := .WithBody b) (by simp [written]) rfl h8).1

end

/-- A request that loses its place: a PUT over a transport that fails once in the middle of the body. -/
def failing (c : Cfg) : Duplex Wire Sink :=
  ⟨⟨[.data b!"HTTP/1.1 200 OK\r\n\r\n"]⟩, ⟨[], 0, if c.std then [.accept 5, .fault .other] else
    List.replicate 12 (.accept 100) ++ [.accept 1, .fault .other]⟩⟩

/-- A write that fails on `failing`: with `std`, one that is too long for the buffer. -/
def failingWrite (c : Cfg) : Bytes := if c.std then List.replicate 8192 97 else b!"abc"

/-- Witness for `C42_after_failures`: the first write fails after one byte of its data, the second succeeds; the server sees
one chunk of three bytes with the wrong data. -/
example : let _ := asciiCase
    (match (HttpRequest.new ⟨false⟩ .Put b!"/x").serialize (BufWriter.new ⟨false⟩ (failing ⟨false⟩)) with
      | .ok o =>
        match (attempt o [.write b!"abc", .write b!"de"]).2.complete with
        | .ok d => decide ((attempt o [.write b!"abc", .write b!"de"]).1 = [.error .other, .ok 2] ∧
            wire d.wr = b!"PUT /x HTTP/1.1\r\n\r\n3\r\na2\r\nde\r\n0\r\n\r\n")
        | .error _ => false
      | .error _ => false) = true ∧
    Torn [.write b!"abc", .write b!"de"] [.error .other, .ok 2] b!"3\r\na2\r\nde\r\n" := by
  refine ⟨by decide +kernel, ?_⟩
  have h3 : Numeral 16 b!"3" 3 := .one (.dec 3 (by omega) (by omega))
  have h2 : Numeral 16 b!"2" 2 := .one (.dec 2 (by omega) (by omega))
  exact .failed (ch := ⟨b!"3", b!"abc", b!"\r\n"⟩) (p := b!"3\r\na") ⟨⟨.inl h3, by decide, by decide, by decide⟩, rfl⟩ ⟨b!"bc\r\n", by decide⟩
    (.written (ch := ⟨b!"2", b!"de", b!"\r\n"⟩) ⟨⟨.inl h2, by decide, by decide, by decide⟩, rfl⟩ .nil)

/-- The property is false: if a write fails and the caller calls `finish` all the same, `finish` sends the end of the
body after the part of the chunk that got out, and reads the response. `OutgoingBody` does not remember the failure. -/
theorem C42_failed_write_false (c : Cfg) :
    ¬ ∀ (_ : CaseMap) (r : HttpRequest c (BufReader c EmptyReader)) (d : Duplex Wire Sink) (o : OutgoingRequest c (Duplex Wire Sink))
        (buf : Bytes) (e : Err), r.version = ⟨1, 1⟩ → r.serialize (BufWriter.new c d) = .ok o →
      (attempt o [.write buf]).1 = [.error e] → (attempt o [.write buf]).2.finish.2.rd = d.rd := by
  intro h
  let _ := asciiCase
  have key : (match (HttpRequest.new c .Put b!"/x").serialize (BufWriter.new c (failing c)) with
      | .ok o => decide ((attempt o [.write (failingWrite c)]).1 = [.error .other] ∧
          (attempt o [.write (failingWrite c)]).2.finish.2.rd ≠ (failing c).rd)
      | .error _ => false) = true := by
    rcases c with ⟨_ | _⟩ <;> decide +kernel
  cases h1 : (HttpRequest.new c .Put b!"/x").serialize (BufWriter.new c (failing c)) with
  | error x => rw [h1] at key; cases key
  | ok o =>
    rw [h1] at key
    have h2 := of_decide_eq_true key
    exact h2.2 (h asciiCase _ _ o _ _ rfl h1 h2.1)

/-- Witness: a PUT with two writes, an empty one and a flush, over a sink that takes a byte at a time for a while. -/
example : ∃ (o o' : OutgoingRequest ⟨true⟩ (Duplex Wire Sink)),
    (HttpRequest.new ⟨true⟩ .Put b!"/x").serialize
      (BufWriter.new ⟨true⟩ ⟨⟨[.data b!"HTTP/1.1 200 OK\r\n\r\n"]⟩, ⟨[], 0, [.accept 1, .accept 1]⟩⟩) = .ok o ∧
    perform o [.write b!"ab", .flush, .write [], .write b!"c"] = (true, o') := by
  let _ := asciiCase
  obtain ⟨o, o', _, h1, h2, _⟩ := C42_reliable (sink_reliable ⟨true⟩) (HttpRequest.new ⟨true⟩ .Put b!"/x") rfl
    (⟨⟨[.data b!"HTTP/1.1 200 OK\r\n\r\n"]⟩, ⟨[], 0, [.accept 1, .accept 1]⟩⟩ : Duplex Wire Sink)
    (by intro a ha; simp only [List.mem_cons, List.not_mem_nil, or_false, or_self] at ha; exact .inl ⟨0, ha⟩)
    [.write b!"ab", .flush, .write [], .write b!"c"] (.inl (.inr (.inr rfl)))
  exact ⟨o, o', h1, h2⟩

end HttpIo

namespace HttpIo
open Spec

/-! ### C43 -/

section
variable [CaseMap] {c : Cfg} {ω α ρ σ τ : Type} [LawfulReader ρ] [LawfulWriter σ] [LawfulReader τ]

/-- Copying nothing. -/
theorem copy_empty {σ : Type} [Writer σ] (s : σ) (n : Nat) : copy c EmptyReader.mk s n = (.ok n, EmptyReader.mk, s) := by
  rw [copy]; rfl

omit [CaseMap] [LawfulReader ρ] [LawfulWriter σ] in
/-- The status is 200 exactly if it is `OK`, for statuses from the table. -/
theorem fromCode_ok (n : UInt32) : HttpStatus.fromCode n = .OK ↔ n = 200 := by
  constructor
  · intro h
    have := C01_code_lossless n
    rw [h] at this
    exact this.symm
  · rintro rfl; rfl

omit [CaseMap] [LawfulReader ρ] [LawfulWriter σ] in
theorem hasBody_iff {m : HttpMethod} : m.hasBody = true ↔ m = .Delete ∨ m = .Post ∨ m = .Put := by
  cases m <;> simp [HttpMethod.hasBody]

omit [CaseMap] [LawfulReader ρ] [LawfulWriter σ] in
theorem written_map (bufs : List Bytes) : written (bufs.map .write) = bufs := by
  induction bufs with
  | nil => rfl
  | cons b bufs ih => rw [List.map_cons, written, ih]

/-- One-shot requests over a transport that does not fail: the response is delivered to the caller iff its status code
is 200, and then as the body that its headers announce, starting right after the head. Otherwise the error carries the
status. -/
theorem sendRequest_status {P : σ → Prop} (hr : Reliable c P) (N : StreamConnector ω α (Duplex ρ σ))
    (b : HttpRequestBuilder c) (hv : b.request.version = ⟨1, 1⟩) (url : Url) (body : τ) (w w1 w2 : ω) (a : α) (d : Duplex ρ σ)
    (ha : N.toStreamAddr url w = (.ok a, w1)) (hc : N.connect a w1 = (.ok d, w2)) (hP : P d.wr)
    (hbody : (b.request.method.hasBody = true ∧ ∃ bs t', Delivers c (trace body) bs t' ∧ Ended c t') ∨
      (∀ (s : OutgoingRequest c (Duplex ρ σ)), copy c body s 0 = (.ok 0, body, s)))
    (status : HttpStatus) (headers : HttpHeaders) (rest : List Ev) (hh : SendableHeaders headers.entries)
    (hl : LengthOk headers.entries) (hd : Delivers c (trace d.rd) (responseHead status.display headers.entries) rest) :
    (status.toCode = 200 → ∃ x d', sendRequest c N b url body w = (.ok x, w2) ∧
      FramedBy headers.entries (framing x) ∧ x.under = some (BufReader.new c d') ∧ trace d'.rd = rest ∧
      ((∀ (s : OutgoingRequest c (Duplex ρ σ)), copy c body s 0 = (.ok 0, body, s)) → b.request.method.hasBody = false →
        wire d'.wr = sent d.wr ++ requestHead b.request.method b.request.uri b.request.headers.entries) ∧
      ∀ bs t', b.request.method.hasBody = true → Delivers c (trace body) bs t' → Ended c t' → ∃ chs,
        (∀ ch ∈ chs, ch.WellFormed) ∧ chunkedData chs = bs ∧
        wire d'.wr = sent d.wr ++ requestHead b.request.method b.request.uri b.request.headers.entries ++
          chunkedBytes chs (utf8 "0") ++ [13, 10]) ∧
    (status.toCode ≠ 200 → ∃ st, sendRequest c N b url body w = (.err (.unexpectedStatus st), w2) ∧
      st.toCode = status.toCode ∧ ((∀ n, status ≠ .Unknown n) → st = status)) := by
  have hr' := duplex_reliable (ρ := ρ) hr
  have hk := duplex_kept (σ := σ) d.rd
  obtain ⟨o, h1, h2⟩ := hr'.serialize_ok b.request (s := d) hP
  have h3 := hk.serialize (r := b.request) (s := d) rfl
  rw [h1] at h3
  obtain ⟨k, body', o', h4, h5, h6⟩ : ∃ k body' o', copy c body o 0 = (.ok k, body', o') ∧ P o'.socketOf.wr ∧
      o'.socketOf.rd = d.rd := by
    rcases hbody with ⟨hm, bs, t', hdel, hend⟩ | hnone
    · have hw : ∃ b, o = .WithBody b := by
        unfold HttpRequest.serialize at h1
        rcases hw : writePieces c (BufWriter.new c d) b.request.headPieces with ⟨_ | _, w'⟩
        · rw [hw] at h1; simp at h1
        · rw [hw] at h1
          dsimp only at h1
          rw [if_pos hm] at h1
          simp only [Except.ok.injEq] at h1
          exact ⟨_, h1.symm⟩
      obtain ⟨k, body', o', h4, h5, _⟩ := hr'.outgoing.copy_ok (r := body) (s := o) (n := 0) ⟨h2, hw⟩ hdel hend
      have h6 := (hk.outgoing (c := c)).copy (c := c) (r := body) (s := o) (n := 0) h3
      rw [h4] at h6
      exact ⟨k, body', o', h4, h5, h6⟩
    · exact ⟨0, body, o, hnone o, h2, h3⟩
  obtain ⟨d1, h7, h8⟩ := hr'.complete_ok h5
  have h9 := hk.complete h6
  rw [h7] at h9
  have hd1 : Delivers c (trace d1) (responseHead status.display headers.entries) rest := by
    rw [Duplex.trace_eq, h9]; exact hd
  obtain ⟨r, d2, g1, g2, _, _, g3, g4, g5⟩ := response_delivered c d1 status headers rest hh hl hd1
  have hfin : o'.finish = (.ok r, d2) := by unfold OutgoingRequest.finish; rw [h7]; exact g1
  have hsend : sendRequest c N b url body w =
      if r.status ≠ .OK then (.err (.unexpectedStatus r.status), w2) else (.ok r.body, w2) := by
    unfold sendRequest HttpRequestBuilder.send
    rw [ha]; dsimp only
    rw [hc]; dsimp only
    rw [h1]; dsimp only
    rw [h4]; dsimp only
    rw [hfin]
  rw [hsend]
  constructor
  · intro h200
    have : r.status = .OK := by rw [g2]; exact (fromCode_ok _).2 h200
    rw [if_neg (by simp [this])]
    have hwr : d2.wr = d1.wr := by
      have := (ReadKept.response (P := fun x : Duplex ρ σ => x.wr = d1.wr) ⟨fun _ _ h => h⟩ (c := c) (s := d1) rfl)
      rwa [g1] at this
    have hser := C18_serialized b.request d hv o h1
    refine ⟨r.body, d2, rfl, g3, g4, g5, ?_, ?_⟩
    · intro hnone hb
      have ho' : o' = o := by have := hnone o; rw [h4] at this; exact (Prod.mk.inj (Prod.mk.inj this).2).2
      subst ho'
      cases o' with
      | WithBody b' => exact absurd (hser.2.1 ⟨b', rfl⟩) (by intro h; rw [← hasBody_iff, hb] at h; simp at h)
      | NoBody t =>
        obtain ⟨k1, k2, _⟩ := sent_request (cs := []) (by simp [written]) rfl h7
        show wire d2.wr = _
        rw [hwr]
        have := k1.trans ((k2 t rfl).1.trans hser.1)
        exact this
    · intro bs t' hb hdel hend
      obtain ⟨ob, rfl⟩ := hser.2.2 (hasBody_iff.1 hb)
      obtain ⟨bufs, ob', t2, e1, e2, e3, e4, e5⟩ := hr'.copy_performs (b := ob) h2 h4
      obtain ⟨k1, _, k3⟩ := sent_request (o := .WithBody ob) (o' := .WithBody ob') (cs := bufs.map .write)
        (by intro buf hbuf
            rw [written_map] at hbuf
            exact (e5 buf hbuf))
        (by rw [perform_withBody, e2]) (by rw [← e1]; exact h7)
      obtain ⟨chs, m1, m2⟩ := k3 ob rfl
      refine ⟨chs, m1.1, ?_, ?_⟩
      · rw [chunkedData_for m1, written_map]
        exact Delivers.ended_unique e3 e4 hdel hend
      · rw [hwr, show utf8 "0" = b!"0" by decide +kernel]
        have h12 := k1.trans m2
        rw [show sent ob.socket = _ from hser.1] at h12
        exact h12
  · intro h200
    have : r.status ≠ .OK := by rw [g2]; exact fun h => h200 ((fromCode_ok _).1 h)
    rw [if_pos this]
    refine ⟨r.status, rfl, by rw [g2, C01_code_lossless], fun hn => ?_⟩
    rw [g2]
    cases status with
    | Unknown n => exact absurd rfl (hn n)
    | _ => rfl

omit [CaseMap] [LawfulReader ρ] [LawfulWriter σ] in
theorem target_eq (url : Url) : requestTarget { url with query := none } = if url.path = [] then b!"/" else url.path := by
  simp [requestTarget]

/-- `client::put`, on a transport that does not fail, with a body that can be read to its end. When it returns, the whole
request is on the transport: the head, and chunks with the data of the body. -/
theorem C43_put {P : σ → Prop} (hr : Reliable c P) (N : StreamConnector ω α (Duplex ρ σ))
    (url : Url) (host : Bytes) (hs : AsciiText url.scheme) (hu : PlainHttp url ∨ SecureHttp url) (hhost : url.host = some host)
    (body : τ) (bs : Bytes) (t' : List Ev) (hbody : Delivers c (trace body) bs t') (hend : Ended c t')
    (w w1 w2 : ω) (a : α) (d : Duplex ρ σ)
    (ha : N.toStreamAddr url w = (.ok a, w1)) (hc : N.connect a w1 = (.ok d, w2)) (hP : P d.wr)
    (status : HttpStatus) (headers : HttpHeaders) (rest : List Ev) (hh : SendableHeaders headers.entries)
    (hl : LengthOk headers.entries) (hd : Delivers c (trace d.rd) (responseHead status.display headers.entries) rest) :
    (status.toCode = 200 → ∃ x d', clientPut c N (some url) body w = (.ok x, w2) ∧
      FramedBy headers.entries (framing x) ∧ x.under = some (BufReader.new c d') ∧ trace d'.rd = rest ∧
      ∃ chs, (∀ ch ∈ chs, ch.WellFormed) ∧ chunkedData chs = bs ∧
        wire d'.wr = sent d.wr ++ requestHead .Put (requestTarget { url with query := none }) (standardHeaders .Put host) ++
          chunkedBytes chs (utf8 "0") ++ [13, 10]) ∧
    (status.toCode ≠ 200 → ∃ st, clientPut c N (some url) body w = (.err (.unexpectedStatus st), w2) ∧
      st.toCode = status.toCode ∧ ((∀ n, status ≠ .Unknown n) → st = status)) := by
  obtain ⟨s, h1, _⟩ := HttpUrl.tryFrom_ok hs hu hhost
  obtain ⟨b, h2, h3, h4, h5, h6⟩ := HttpRequestBuilder.new_ok c ⟨url, s, host⟩ .Put
  have : clientPut c N (some url) body w = sendRequest c N b url body w := by
    unfold clientPut HttpRequestBuilder.put
    dsimp only
    rw [h1, h2]
  rw [this]
  obtain ⟨g1, g2⟩ := sendRequest_status hr N b h5 url body w w1 w2 a d ha hc hP (.inl ⟨by rw [h3]; rfl, bs, t', hbody, hend⟩)
    status headers rest hh hl hd
  refine ⟨fun h200 => ?_, g2⟩
  obtain ⟨x, d', k1, k2, k3, k4, _, k5⟩ := g1 h200
  obtain ⟨chs, k6, k7, k8⟩ := k5 bs t' (by rw [h3]; rfl) hbody hend
  rw [h3, h4, h6, ← target_eq] at k8
  exact ⟨x, d', k1, k2, k3, k4, chs, k6, k7, k8⟩

/-- `client::get`, on a transport that does not fail. When it returns, the whole request is on the transport. -/
theorem C43_get {P : σ → Prop} (hr : Reliable c P) (N : StreamConnector ω α (Duplex ρ σ))
    (url : Url) (host : Bytes) (hs : AsciiText url.scheme) (hu : PlainHttp url ∨ SecureHttp url) (hhost : url.host = some host)
    (w w1 w2 : ω) (a : α) (d : Duplex ρ σ)
    (ha : N.toStreamAddr url w = (.ok a, w1)) (hc : N.connect a w1 = (.ok d, w2)) (hP : P d.wr)
    (status : HttpStatus) (headers : HttpHeaders) (rest : List Ev) (hh : SendableHeaders headers.entries)
    (hl : LengthOk headers.entries) (hd : Delivers c (trace d.rd) (responseHead status.display headers.entries) rest) :
    (status.toCode = 200 → ∃ x d', clientGet c N (some url) w = (.ok x, w2) ∧
      FramedBy headers.entries (framing x) ∧ x.under = some (BufReader.new c d') ∧ trace d'.rd = rest ∧
      wire d'.wr = sent d.wr ++ requestHead .Get (requestTarget { url with query := none }) (standardHeaders .Get host)) ∧
    (status.toCode ≠ 200 → ∃ st, clientGet c N (some url) w = (.err (.unexpectedStatus st), w2) ∧
      st.toCode = status.toCode ∧ ((∀ n, status ≠ .Unknown n) → st = status)) := by
  obtain ⟨s, h1, _⟩ := HttpUrl.tryFrom_ok hs hu hhost
  obtain ⟨b, h2, h3, h4, h5, h6⟩ := HttpRequestBuilder.new_ok c ⟨url, s, host⟩ .Get
  have : clientGet c N (some url) w = sendRequest c N b url EmptyReader.mk w := by
    unfold clientGet HttpRequestBuilder.get
    dsimp only
    rw [h1, h2]
  rw [this]
  obtain ⟨g1, g2⟩ := sendRequest_status hr N b h5 url EmptyReader.mk w w1 w2 a d ha hc hP (.inr fun s => copy_empty s 0)
    status headers rest hh hl hd
  refine ⟨fun h200 => ?_, g2⟩
  obtain ⟨x, d', k1, k2, k3, k4, k5, _⟩ := g1 h200
  have k6 := k5 (fun s => copy_empty s 0) (by rw [h3]; rfl)
  rw [h3, h4, h6, ← target_eq] at k6
  exact ⟨x, d', k1, k2, k3, k4, k6⟩

/-- Whatever the network and the peer do: if `sendRequest` (which is what both one-shot functions end in) returns a
body, it is the body of a response with status 200, parsed from the connection that was opened for this request, with
nothing read from it before. -/
theorem sendRequest_only (N : StreamConnector ω α (Duplex ρ σ)) (b : HttpRequestBuilder c) (url : Url) (body : τ) (w w' : ω)
    (x : HttpBody c (BufReader c (Duplex ρ σ))) (h : sendRequest c N b url body w = (.ok x, w')) :
    ∃ a w1 d d' d'' r, N.toStreamAddr url w = (.ok a, w1) ∧ N.connect a w1 = (.ok d, w') ∧ d'.rd = d.rd ∧
      HttpResponse.deserialize c d' = (.ok r, d'') ∧ r.status.toCode = 200 ∧ x = r.body := by
  unfold sendRequest at h
  rcases ha : N.toStreamAddr url w with ⟨_ | _ | _, w1⟩ <;> rw [ha] at h <;> simp only [Prod.mk.injEq, reduceCtorEq, false_and] at h
  rename_i a
  rcases hc : N.connect a w1 with ⟨_ | _ | _, w2⟩ <;> rw [hc] at h <;> simp only [Prod.mk.injEq, reduceCtorEq, false_and] at h
  rename_i d
  unfold HttpRequestBuilder.send at h
  have hk := duplex_kept (σ := σ) d.rd
  have h3 := hk.serialize (r := b.request) (s := d) rfl
  cases hs : b.request.serialize (BufWriter.new c d) with
  | error e => rw [hs] at h; simp at h
  | ok o =>
    rw [hs] at h h3
    dsimp only at h h3
    have h6 := (hk.outgoing (c := c)).copy (c := c) (r := body) (s := o) (n := 0) h3
    rcases hcp : copy c body o 0 with ⟨_ | _, body', o'⟩
    · rw [hcp] at h; simp at h
    · rw [hcp] at h h6
      dsimp only at h h6
      have h9 := hk.complete h6
      unfold OutgoingRequest.finish at h
      cases hcm : o'.complete with
      | error e => rw [hcm] at h; simp at h
      | ok d' =>
        rw [hcm] at h h9
        dsimp only at h h9
        rcases hf : HttpResponse.deserialize c d' with ⟨r | _ | _, d''⟩ <;> rw [hf] at h <;> dsimp only at h
        · by_cases hok : r.status = .OK
          · rw [if_neg (by simp [hok])] at h
            simp only [Prod.mk.injEq, Res.ok.injEq] at h
            refine ⟨a, w1, d, d', d'', r, rfl, by rw [hc, h.2], h9, hf, by rw [hok]; rfl, h.1.symm⟩
          · rw [if_pos hok] at h; simp at h
        · simp at h
        · simp at h

/-- The same for the one-shot functions. -/
theorem C43_only (N : StreamConnector ω α (Duplex ρ σ)) (url : Option Url) (body : τ) (w w' : ω)
    (x : HttpBody c (BufReader c (Duplex ρ σ)))
    (h : clientGet c N url w = (.ok x, w') ∨ clientPut c N url body w = (.ok x, w')) :
    ∃ u a w1 d d' d'' r, url = some u ∧ N.toStreamAddr u w = (.ok a, w1) ∧ N.connect a w1 = (.ok d, w') ∧ d'.rd = d.rd ∧
      HttpResponse.deserialize c d' = (.ok r, d'') ∧ r.status.toCode = 200 ∧ x = r.body := by
  cases url with
  | none => rcases h with h | h <;> simp [clientGet, clientPut] at h
  | some u =>
    refine ⟨u, ?_⟩
    simp only [true_and]
    rcases h with h | h
    · unfold clientGet at h
      dsimp only at h
      cases hb : HttpRequestBuilder.get c (HttpUrl.tryFrom u) with
      | ok b => rw [hb] at h; exact sendRequest_only N b u EmptyReader.mk w w' x h
      | err e => rw [hb] at h; simp at h
      | panic => rw [hb] at h; simp at h
    · unfold clientPut at h
      dsimp only at h
      cases hb : HttpRequestBuilder.put c (HttpUrl.tryFrom u) with
      | ok b => rw [hb] at h; exact sendRequest_only N b u body w w' x h
      | err e => rw [hb] at h; simp at h
      | panic => rw [hb] at h; simp at h

end

/-- A network with one server, which answers every request alike. -/
def oneServer (answer : Bytes) : StreamConnector Unit Unit (Duplex Wire Sink) :=
  ⟨fun _ w => (.ok ⟨⟨[.data answer]⟩, ⟨[], 0, [.accept 2]⟩⟩, w), fun _ w => (.ok (), w)⟩

/-- Witness: 200 and 404 answers to a PUT with a body in two pieces. -/
example : let _ := asciiCase
    (∃ x w, clientPut ⟨false⟩ (oneServer b!"HTTP/1.1 200 OK\r\n\r\nhi") (some sampleUrl)
      (Wire.mk [.data b!"ab", .data b!"c"]) () = (.ok x, w)) ∧
    (∃ st w, clientPut ⟨false⟩ (oneServer b!"HTTP/1.1 404 Not Found\r\n\r\nhi") (some sampleUrl)
      (Wire.mk [.data b!"ab", .data b!"c"]) () = (.err (.unexpectedStatus st), w) ∧ st = .NotFound) := by
  have hu : SecureHttp sampleUrl := by
    unfold SecureHttp
    rw [utf8_https]
    exact sameText_refl _
  have ha : AsciiText sampleUrl.scheme := by rw [← isAscii_iff]; decide
  have hplan : ∀ a ∈ [WPlan.accept 2], (∃ n, a = .accept (n + 1)) ∨ ∃ e, a = .fault e ∧ Retried ⟨false⟩ e := by
    intro a ha; simp only [List.mem_cons, List.not_mem_nil, or_false] at ha; exact .inl ⟨1, ha⟩
  constructor
  · have hd : responseHead HttpStatus.OK.display [] = b!"HTTP/1.1 200 OK\r\n\r\n" := by decide +kernel
    obtain ⟨x, d', h, _⟩ := (@C43_put asciiCase ⟨false⟩ _ _ _ _ _ _ _ _ _ (sink_reliable _)
      (oneServer b!"HTTP/1.1 200 OK\r\n\r\nhi") sampleUrl b!"h" ha (.inr hu) rfl (Wire.mk [.data b!"ab", .data b!"c"])
      b!"abc" [] (delivers_map _ b!"abc" []) (by intro e he; simp at he) () () () () _ rfl rfl hplan .OK ⟨[]⟩
      (b!"hi".map .byte) ⟨by simp [SortedNames], by simp, by simp⟩ (by intro v hv; simp at hv)
      (by rw [hd]; exact delivers_map _ b!"HTTP/1.1 200 OK\r\n\r\n" (b!"hi".map .byte))).1 rfl
    exact ⟨x, (), h⟩
  · have hd : responseHead HttpStatus.NotFound.display [] = b!"HTTP/1.1 404 Not Found\r\n\r\n" := by decide +kernel
    obtain ⟨st, h, _, h3⟩ := (@C43_put asciiCase ⟨false⟩ _ _ _ _ _ _ _ _ _ (sink_reliable _)
      (oneServer b!"HTTP/1.1 404 Not Found\r\n\r\nhi") sampleUrl b!"h" ha (.inr hu) rfl (Wire.mk [.data b!"ab", .data b!"c"])
      b!"abc" [] (delivers_map _ b!"abc" []) (by intro e he; simp at he) () () () () _ rfl rfl hplan .NotFound ⟨[]⟩
      (b!"hi".map .byte) ⟨by simp [SortedNames], by simp, by simp⟩ (by intro v hv; simp at hv)
      (by rw [hd]; exact delivers_map _ b!"HTTP/1.1 404 Not Found\r\n\r\n" (b!"hi".map .byte))).2 (by decide)
    exact ⟨st, (), h, h3 (by simp)⟩

end HttpIo
