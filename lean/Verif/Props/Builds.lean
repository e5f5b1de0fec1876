import Verif.Lemmas.Builds
import Verif.Props.Client
import Verif.Props.Forward

/-! C63: the crate built with `std` and without. -/

namespace HttpIo
open Spec

/-! ### C63 -/

section
variable {σ τ : Type} [LawfulReader σ] [ZeroReader σ] [LawfulReader τ] [ZeroReader τ]

/-- Both builds parse the same requests from the same bytes: same outcome, same error; same method, target, version, headers
and framing; nothing else consumed; and bodies that give the same bytes and then both end or both fail. -/
theorem C63_request [CaseMap] (c c' : Cfg) (s : σ) (u : τ) (h : trace s = trace u) (hq : Uninterrupted (trace s)) :
    SameOutcome (fun r r' => r.method = r'.method ∧ r.uri = r'.uri ∧ r.version = r'.version ∧
        r.headers = r'.headers ∧ framing r.body = framing r'.body ∧ ReadAlike r.body r'.body)
      (HttpRequest.deserialize c s).1 (HttpRequest.deserialize c' u).1 ∧
    trace (HttpRequest.deserialize c s).2 = trace (HttpRequest.deserialize c' u).2 := by
  have hp := parseHead_builds (c := c) (c' := c') (start := parseRequestLine) h hq
  have hk := uninterrupted_kept.parseHead (c := c) (start := parseRequestLine) hq
  unfold HttpRequest.deserialize
  rcases h1 : parseHead c parseRequestLine s with ⟨r1, s1⟩
  rcases h2 : parseHead c' parseRequestLine u with ⟨r2, u1⟩
  rw [h1] at hk
  rw [h1, h2] at hp
  obtain ⟨rfl, ht⟩ := hp
  dsimp only at ht
  rcases r1 with ⟨⟨m, uri, v⟩, hs, enc, n⟩ | e | _
  · exact ⟨.ok ⟨rfl, rfl, rfl, rfl, body_framing _ _ _ _, body_builds ht hk enc n⟩, ht⟩
  · exact ⟨.err e, ht⟩
  · exact ⟨.panic, ht⟩

/-- The same for responses. -/
theorem C63_response [CaseMap] (c c' : Cfg) (s : σ) (u : τ) (h : trace s = trace u) (hq : Uninterrupted (trace s)) :
    SameOutcome (fun r r' => r.version = r'.version ∧ r.status = r'.status ∧
        r.headers = r'.headers ∧ framing r.body = framing r'.body ∧ ReadAlike r.body r'.body)
      (HttpResponse.deserialize c s).1 (HttpResponse.deserialize c' u).1 ∧
    trace (HttpResponse.deserialize c s).2 = trace (HttpResponse.deserialize c' u).2 := by
  have hp := parseHead_builds (c := c) (c' := c') (start := parseStatusLine) h hq
  have hk := uninterrupted_kept.parseHead (c := c) (start := parseStatusLine) hq
  unfold HttpResponse.deserialize
  rcases h1 : parseHead c parseStatusLine s with ⟨r1, s1⟩
  rcases h2 : parseHead c' parseStatusLine u with ⟨r2, u1⟩
  rw [h1] at hk
  rw [h1, h2] at hp
  obtain ⟨rfl, ht⟩ := hp
  dsimp only at ht hk
  rcases r1 with ⟨⟨v, st⟩, hs, enc, n⟩ | e | _
  · refine ⟨.ok ⟨rfl, rfl, rfl, body_framing _ _ _ _, body_builds ?_ ?_ enc n⟩, ht⟩
    · simpa using ht
    · simpa using hk
  · exact ⟨.err e, ht⟩
  · exact ⟨.panic, ht⟩

end

/-- Both builds put the same bytes on the wire for the same request and the same written buffers, whatever the transports
accept per call and whenever the caller flushes. (`complete` is what `finish` does before it reads.) -/
theorem C63_sent {c c' : Cfg} {ρ ρ' σ τ : Type} [LawfulWriter σ] [LawfulWriter τ] (r : HttpRequest c ρ) (r' : HttpRequest c' ρ')
    (hm : r.method = r'.method) (hu : r.uri = r'.uri) (hv : r.version = r'.version) (hh : r.headers = r'.headers)
    (s s' : σ) (u u' : τ) (hs : sent s = sent u) (o o' : OutgoingRequest c σ) (q q' : OutgoingRequest c' τ)
    (h1 : r.serialize (BufWriter.new c s) = .ok o) (h2 : r'.serialize (BufWriter.new c' u) = .ok q) (cs ds : List WCall)
    (hw : written cs = written ds) (h3 : perform o cs = (true, o')) (h4 : perform q ds = (true, q'))
    (h5 : o'.complete = .ok s') (h6 : q'.complete = .ok u') : wire s' = wire u' := by
  obtain ⟨a1, a2⟩ := request_serialized_sent r s o h1
  obtain ⟨b1, b2⟩ := request_serialized_sent r' u q h2
  have hp : r.headPieces = r'.headPieces := by
    unfold HttpRequest.headPieces; rw [hm, hu, hv, hh]
  rw [hm] at a2
  rw [hp, hs, ← b1] at a1
  have body : ∀ {c : Cfg} {σ : Type} [LawfulWriter σ] {b : OutgoingBody c σ} {o' : OutgoingRequest c σ} {cs : List WCall} {s' : σ},
      perform (OutgoingRequest.WithBody b) cs = (true, o') → o'.complete = .ok s' →
      wire s' = sent b.socket ++ ((written cs).map emitted).flatten ++ b!"0\r\n\r\n" := by
    intro c σ _ b o' cs s' hp hc
    rw [perform_withBody] at hp
    simp only [Prod.mk.injEq] at hp
    obtain ⟨h1, h2⟩ := hp
    obtain ⟨_, p, _, g3, g4⟩ := OutgoingBody.perform_sent (b := b) (cs := cs) (Prod.ext h1 rfl)
    rw [← h2] at hc
    obtain ⟨g5, g6⟩ := OutgoingBody.complete_ok hc
    rw [g6, g5, g3, g4 rfl]
  have none : ∀ {c : Cfg} {σ : Type} [LawfulWriter σ] {s : σ} {o' : OutgoingRequest c σ} {cs : List WCall} {s' : σ},
      perform (OutgoingRequest.NoBody s) cs = (true, o') → o'.complete = .ok s' → wire s' = sent s := by
    intro c σ _ s o' cs s' hp hc
    have h := (perform_noBody (c := c) s cs).1
    rw [hp] at h
    dsimp only at h
    subst h
    unfold OutgoingRequest.complete at hc
    dsimp only at hc
    rcases hf : flush s with ⟨_ | _, s1⟩
    · rw [hf] at hc; simp at hc
    · rw [hf] at hc
      simp only [Except.ok.injEq] at hc
      subst hc
      have h3 := LawfulWriter.flush_sent s
      rw [hf] at h3
      rw [LawfulWriter.flush_ok_wire hf]
      exact h3
  cases o with
  | WithBody b =>
    cases q with
    | WithBody d => rw [body h3 h5, body h4 h6, hw, show sent b.socket = sent d.socket from a1]
    | NoBody t => obtain ⟨d, hd⟩ := b2.2 (a2.1 ⟨b, rfl⟩); cases hd
  | NoBody t =>
    cases q with
    | WithBody d => obtain ⟨d, hd⟩ := a2.2 (b2.1 ⟨d, rfl⟩); cases hd
    | NoBody t' => rw [none h3 h5, none h4 h6, show sent t = sent t' from a1]

/-- ... and for the same response head. -/
theorem C63_response_sent {c c' : Cfg} {ρ ρ' σ τ : Type} [LawfulWriter σ] [LawfulWriter τ] (r : HttpResponse c ρ)
    (r' : HttpResponse c' ρ') (hv : r.version = r'.version) (ht : r.status = r'.status) (hh : r.headers = r'.headers)
    (s s' : σ) (u u' : τ) (hs : sent s = sent u) (h1 : r.serialize s = (.ok (), s')) (h2 : r'.serialize u = (.ok (), u')) :
    sent s' = sent u' := by
  unfold HttpResponse.serialize at h1 h2
  obtain ⟨_, p, _, g2, g3⟩ := writePieces_sent h1
  obtain ⟨_, q, _, k2, k3⟩ := writePieces_sent h2
  rw [g2, k2, g3 rfl, k3 rfl, hs]
  unfold HttpResponse.headPieces
  rw [hv, ht, hh]

/-- Why interruptions are excluded: the `std` build repeats the call, the other one reports it as an error. -/
theorem C63_interrupted_false :
    let _ := asciiCase
    ∃ s : Wire, (∃ r, (HttpRequest.deserialize ⟨true⟩ s).1 = .ok r) ∧
      (HttpRequest.deserialize ⟨false⟩ s).1 = .err (.io .interrupted) := by
  let _ := asciiCase
  let s : Wire := ⟨[.data b!"GET / HT", .fault (.io .interrupted), .data b!"TP/1.1\r\n\r\n"]⟩
  have h1 : (match (HttpRequest.deserialize ⟨true⟩ s).1 with | .ok _ => true | _ => false) = true := by decide +kernel
  have h2 : (match (HttpRequest.deserialize ⟨false⟩ s).1 with | .err e => decide (e = .io .interrupted) | _ => false) = true := by
    decide +kernel
  refine ⟨s, ?_, ?_⟩
  · cases h : (HttpRequest.deserialize ⟨true⟩ s).1 with
    | ok r => exact ⟨r, rfl⟩
    | err e => rw [h] at h1; cases h1
    | panic => rw [h] at h1; cases h1
  · cases h : (HttpRequest.deserialize ⟨false⟩ s).1 with
    | err e => rw [h] at h2; rw [of_decide_eq_true h2]
    | ok e => rw [h] at h2; cases h2
    | panic => rw [h] at h2; cases h2

/-- Witness: one stream in two fragmentations, with a malformed size line in the chunked body; both builds read `abc` and then
fail, each with its own error type. -/
example : let _ := asciiCase
    let s : Wire := ⟨[.data b!"PUT /x HTTP/1.1\r\ntransfer-encoding: chunked\r\n\r\n3\r\nab", .data b!"c\r\nzz\r\n"]⟩
    let u : Wire := ⟨[.data b!"PUT /x HTTP/1.1\r\ntransfer-encoding: ch", .data b!"unked\r\n\r\n3\r\nabc\r", .data b!"\nzz\r\n"]⟩
    trace s = trace u ∧ Uninterrupted (trace s) ∧
    (match (HttpRequest.deserialize ⟨true⟩ s).1, (HttpRequest.deserialize ⟨false⟩ u).1 with
      | .ok r, .ok r' => decide ((calls r.body [9, 9, 9]).1 = [.ok b!"ab", .ok b!"c", .error (.io (.other 0))] ∧
          (calls r'.body [9, 9, 9]).1 = [.ok b!"abc", .error .parseInt, .ok []])
      | _, _ => false) = true := by
  refine ⟨by decide, ?_, by decide +kernel⟩
  unfold Uninterrupted
  decide

/-- Witness for `C63_sent`: different writers, flushes at different places. -/
example : let s : Sink := ⟨[], 0, [.accept 2, .accept 1]⟩
    let u : Sink := ⟨[], 0, []⟩
    (match (HttpRequest.new ⟨true⟩ .Put b!"/x").serialize (BufWriter.new ⟨true⟩ s),
        (HttpRequest.new ⟨false⟩ .Put b!"/x").serialize (BufWriter.new ⟨false⟩ u) with
      | .ok o, .ok q =>
        match perform o [.write b!"abc", .flush, .write []], perform q [.write b!"abc", .write []] with
        | (true, o'), (true, q') =>
          match o'.complete, q'.complete with
          | .ok s', .ok u' => decide (s'.got = b!"PUT /x HTTP/1.1\r\n\r\n3\r\nabc\r\n0\r\n\r\n" ∧ u'.got = s'.got)
          | _, _ => false
        | _, _ => false
      | _, _ => false) = true := by decide +kernel

end HttpIo
