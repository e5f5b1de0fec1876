import Verif.Spec.Depends
import Verif.Props.Cut
import Verif.Props.Accept

/-! C86, C87: what an answer depends on, and how long a head may be. -/

namespace HttpIo
open Spec

/-- A reader that is read to the end ends or fails. -/
theorem delivers_total (c : Cfg) (t : List Ev) :
    ∃ bs t', Delivers c t bs t' ∧ (Ended c t' ∨ ∃ e t'', Fails c t' e t'') := by
  induction t with
  | nil => exact ⟨[], [], .nil _, .inl (by simp [Ended])⟩
  | cons ev t ih =>
    obtain ⟨bs, t', h1, h2⟩ := ih
    cases ev with
    | byte b => exact ⟨b :: bs, t', .byte b h1, h2⟩
    | fault e =>
      by_cases he : Retried c e
      · cases bs with
        | nil =>
          have : t' = t := by cases h1; rfl
          subst this
          refine ⟨[], _, .nil _, ?_⟩
          rcases h2 with h2 | ⟨e', t'', h3, pre, h4, h5⟩
          · refine .inl fun ev hev => ?_
            rcases List.mem_cons.1 hev with rfl | hev
            · exact ⟨e, rfl, he⟩
            · exact h2 ev hev
          · refine .inr ⟨e', t'', h3, .fault e :: pre, by rw [h4]; rfl, fun ev hev => ?_⟩
            rcases List.mem_cons.1 hev with rfl | hev
            · exact ⟨e, rfl, he⟩
            · exact h5 ev hev
        | cons b bs => exact ⟨b :: bs, t', .retry he h1, h2⟩
      · exact ⟨[], _, .nil _, .inr ⟨e, t, he, [], rfl, by simp [Ended]⟩⟩

section
variable {c : Cfg} {σ ρ : Type} [LawfulReader ρ] [LawfulWriter σ] {P : σ → Prop}

/-- On reliable writers `copy` does what the reader's events say. -/
theorem copy_by_trace {ρ' τ : Type} [LawfulReader ρ'] [LawfulWriter τ] {Q : τ → Prop} (hr : Reliable c P) (hq : Reliable c Q)
    {a : ρ} {b : ρ'} (hab : trace a = trace b) {s : σ} {u : τ} (hs : P s) (hu : Q u) (n : Nat) :
    (copy c a s n).1 = (copy c b u n).1 ∧ ∃ x, sent (copy c a s n).2.2 = sent s ++ x ∧ sent (copy c b u n).2.2 = sent u ++ x := by
  obtain ⟨bs, t', h1, h2⟩ := delivers_total c (trace a)
  rcases h2 with h2 | ⟨e, t'', h2⟩
  · obtain ⟨k1, a', s', g1, _⟩ := hr.copy_ok (n := n) hs h1 h2
    obtain ⟨k2, b', u', g2, _⟩ := hq.copy_ok (r := b) (n := n) hu (by rw [← hab]; exact h1) h2
    obtain ⟨bs1, t1, p1, p2, p3, p4, _⟩ := C33_copy_ok c _ _ _ _ _ _ g1
    obtain ⟨bs2, t2, q1, q2, q3, q4, _⟩ := C33_copy_ok c _ _ _ _ _ _ g2
    rw [← hab] at q1
    have e1 := h1.ended_unique h2 p1 p2
    have e2 := h1.ended_unique h2 q1 q2
    subst e1 e2
    rw [g1, g2]
    exact ⟨by rw [p4, q4], bs, p3, q3⟩
  · obtain ⟨a', s', g1, g2, _⟩ := copy_fails hr (n := n) hs h1 h2
    obtain ⟨b', u', g3, g4, _⟩ := copy_fails hq (r := b) (n := n) hu (by rw [← hab]; exact h1) h2
    rw [g1, g3]
    exact ⟨rfl, bs, g2, g4⟩

/-- Reading does not depend on the writer. -/
theorem copy_reader {τ : Type} [LawfulWriter τ] {Q : τ → Prop} (hr : Reliable c P) (hq : Reliable c Q)
    {a : ρ} {s : σ} {u : τ} (hs : P s) (hu : Q u) (n : Nat) : (copy c a s n).2.1 = (copy c a u n).2.1 := by
  fun_induction copy c a s n generalizing u with
  | case1 r w n r1 h1 => rw [copy]; rw [h1]
  | case2 r w n b bs' r1 h1 w1 hw ih =>
    have h2 := hr.writeAll_next w (b :: bs') hs
    rw [hw] at h2
    have h3 := hq.writeAll_next u (b :: bs') hu
    have h4 := hq.writeAll_ok u (b :: bs') hu
    rcases hw' : writeAll c u (b :: bs') with ⟨x, u1⟩
    rw [hw'] at h3 h4
    dsimp only at h3 h4
    rw [ih h2 h3]
    conv => rhs; rw [copy]
    rw [h1]; dsimp only; rw [hw', h4]
  | case3 r w n b bs' r1 h1 e1 w1 hw =>
    have h2 := hr.writeAll_ok w (b :: bs') hs
    rw [hw] at h2
    simp at h2
  | case4 r w n e r1 h1 hret ih =>
    rw [ih hs hu]
    conv => rhs; rw [copy]
    rw [h1]; dsimp only; rw [if_pos hret]
  | case5 r w n e r1 h1 hre =>
    rw [copy]; rw [h1]; dsimp only; rw [if_neg hre]

theorem respond_by_trace (hr : Reliable c P) [ZeroReader ρ] (r : ServerResponse c ρ) {s u : σ} (hs : P s) (hu : P u) :
    (respond c r s).1 = (respond c r u).1 ∧ (respond c r s).2.1 = (respond c r u).2.1 ∧
    ∃ x, sent (respond c r s).2.2 = sent s ++ x ∧ sent (respond c r u).2.2 = sent u ++ x := by
  obtain ⟨s1, h1, h2⟩ := hr.writePieces_ok (ps := r.headPieces) hs
  obtain ⟨u1, h3, h4⟩ := hr.writePieces_ok (ps := r.headPieces) hu
  obtain ⟨_, p, _, g2, g3⟩ := writePieces_sent h1
  obtain ⟨_, q, _, k2, k3⟩ := writePieces_sent h3
  obtain ⟨e1, x, e2, e3⟩ := copy_by_trace hr hr (a := r.body) (b := r.body) rfl h2 h4 0
  have e4 := copy_reader hr hr (a := r.body) h2 h4 0
  unfold respond HttpResponse.serialize
  rw [h1, h3]
  dsimp only
  rcases hc : copy c r.body s1 0 with ⟨y | y, b, s2⟩ <;> rcases hc' : copy c r.body u1 0 with ⟨z | z, b', u2⟩ <;>
    rw [hc] at e1 e2 e4 <;> rw [hc'] at e1 e3 e4 <;> simp only [reduceCtorEq, Except.error.injEq] at e1 <;> dsimp only at e2 e3 e4 ⊢
  · exact ⟨by rw [e1], e4, p ++ x, by rw [e2, g2, List.append_assoc], by rw [e3, k2, k3 rfl, g3 rfl, List.append_assoc]⟩
  · exact ⟨rfl, e4, p ++ x, by rw [e2, g2, List.append_assoc], by rw [e3, k2, k3 rfl, g3 rfl, List.append_assoc]⟩

end

section
variable [CaseMap] {c : Cfg} {η σ ρ ε : Type} [LawfulReader σ] [ZeroReader σ] [LawfulWriter σ] [LawfulReader ρ] [ZeroReader ρ]

theorem same_answer {P : σ → Prop} (hra : ReadsApart σ) (hrel : Reliable c P) (hkept : ∀ s n, P s → P (read s n).2)
    (h : Handler c η σ ρ ε) (ho : OnlyReads h) (errText : Err → Bytes) (s u : σ) (self : η) (hs : P s) (hu : P u)
    (h1 : (h.serveOneInner errText s self).1 = (h.serveOneInner errText u self).1)
    (h2 : (h.serveOneInner errText s self).2.2 = (h.serveOneInner errText u self).2.2) : SameAnswer h errText s u self := by
  have ps := inner_sent hra h ho errText s self
  have pu := inner_sent hra h ho errText u self
  have qs := inner_kept ⟨hkept⟩ h ho errText self hs
  have qu := inner_kept ⟨hkept⟩ h ho errText self hu
  unfold SameAnswer Handler.serveOne
  dsimp only
  rcases hx : h.serveOneInner errText s self with ⟨x, s1, st⟩
  rcases hy : h.serveOneInner errText u self with ⟨y, u1, st'⟩
  rw [hx] at h1 h2 ps qs
  rw [hy] at h1 h2 pu qu
  dsimp only at h1 h2 ps pu qs qu
  subst h1 h2
  cases x with
  | panic => exact ⟨s1, u1, [], rfl, rfl, rfl, rfl, by rw [ps, List.append_nil], by rw [pu, List.append_nil]⟩
  | ok r =>
    obtain ⟨g1, g0, z, g2, g3⟩ := respond_by_trace hrel r qs qu
    rw [ps] at g2
    rw [pu] at g3
    dsimp only
    rcases hc : respond c r s1 with ⟨a | a, b, s2⟩ <;> rcases hc' : respond c r u1 with ⟨a' | a', b', u2⟩ <;>
      rw [hc] at g0 g1 g2 <;> rw [hc'] at g0 g1 g3 <;> simp only [reduceCtorEq, Except.error.injEq] at g1 <;> dsimp only at g0 g2 g3 ⊢ <;> subst g0
    · exact ⟨s2, u2, z, rfl, rfl, by rw [g1], rfl, g2, g3⟩
    · exact ⟨s2, u2, z, rfl, rfl, rfl, rfl, g2, g3⟩
  | err r =>
    obtain ⟨g1, g0, z, g2, g3⟩ := respond_by_trace hrel r qs qu
    rw [ps] at g2
    rw [pu] at g3
    dsimp only
    rcases hc : respond c r s1 with ⟨a | a, b, s2⟩ <;> rcases hc' : respond c r u1 with ⟨a' | a', b', u2⟩ <;>
      rw [hc] at g0 g1 g2 <;> rw [hc'] at g0 g1 g3 <;> simp only [reduceCtorEq, Except.error.injEq] at g1 <;> dsimp only at g0 g2 g3 ⊢ <;> subst g0
    · exact ⟨s2, u2, z, rfl, rfl, by rw [g1], rfl, g2, g3⟩
    · exact ⟨s2, u2, z, rfl, rfl, rfl, rfl, g2, g3⟩

/-! ### C86 -/

/-- Two requests with the same method and target, and for PUT and POST the same body, get the same answer. -/
theorem handled_same (h : Handler c η σ ρ ε) (hb : ByContent h) (errText : Err → Bytes) {s u : σ} (self : η)
    {r r' : HttpRequest c (BufReader c σ)} {s1 u1 : BufReader c σ}
    (hs : HttpRequest.deserialize c (BufReader.new c s) = (.ok r, s1))
    (hu : HttpRequest.deserialize c (BufReader.new c u) = (.ok r', u1))
    (hm : r.method = r'.method) (huri : r.uri = r'.uri)
    (hbody : r.method = .Put ∨ r.method = .Post → framing r.body = framing r'.body ∧ trace r.body = trace r'.body) :
    (h.serveOneInner errText s self).1 = (h.serveOneInner errText u self).1 ∧
    (h.serveOneInner errText s self).2.2 = (h.serveOneInner errText u self).2.2 := by
  by_cases ha : Acceptable r
  · have ha' : Acceptable r' := fun h => by
      rw [← hm] at h
      rw [← (hbody h).1]; exact ha h
    rw [serveOneInner_handled h errText self hs ha, serveOneInner_handled h errText self hu ha', ← hm, ← huri]
    dsimp only
    cases hmm : r.method with
    | Put =>
      obtain ⟨e1, e2⟩ := hbody (.inl hmm)
      obtain ⟨e3, e4⟩ := hb.put r.uri _ _ self e1 e2
      dsimp only [handled]
      rw [e3, e4]; exact ⟨rfl, rfl⟩
    | Post =>
      obtain ⟨e1, e2⟩ := hbody (.inr hmm)
      obtain ⟨e3, e4⟩ := hb.post r.uri _ _ self e1 e2
      dsimp only [handled]
      rw [e3, e4]; exact ⟨rfl, rfl⟩
    | _ => exact ⟨rfl, rfl⟩
  · have ha' : ¬ Acceptable r' := fun h => ha fun hm' => by
      rw [(hbody hm').1]; exact h (by rw [← hm]; exact hm')
    rw [serveOneInner_refused h errText self hs ha, serveOneInner_refused h errText self hu ha']
    exact ⟨rfl, rfl⟩

/-- How a connection splits what arrives into reads does not matter, whatever arrives. -/
theorem C86_fragments {P : σ → Prop} (hra : ReadsApart σ) (hrel : Reliable c P) (hkept : ∀ s n, P s → P (read s n).2)
    (h : Handler c η σ ρ ε) (ho : OnlyReads h) (hb : ByContent h) (errText : Err → Bytes) (s u : σ) (self : η) (hs : P s) (hu : P u)
    (ht : trace s = trace u) : SameAnswer h errText s u self := by
  have h9 := (C09_request c (BufReader.new c s) (BufReader.new c u) (by rw [BufReader.trace_new, BufReader.trace_new, ht])).1
  have key : (h.serveOneInner errText s self).1 = (h.serveOneInner errText u self).1 ∧
      (h.serveOneInner errText s self).2.2 = (h.serveOneInner errText u self).2.2 := by
    rcases hx : HttpRequest.deserialize c (BufReader.new c s) with ⟨x, s1⟩
    rcases hy : HttpRequest.deserialize c (BufReader.new c u) with ⟨y, u1⟩
    rw [hx, hy] at h9
    dsimp only at h9
    cases h9 with
    | err e =>
      rw [serveOneInner_err h errText self hx, serveOneInner_err h errText self hy]; exact ⟨rfl, rfl⟩
    | panic => rw [serveOneInner_panic h errText self hx, serveOneInner_panic h errText self hy]; exact ⟨rfl, rfl⟩
    | ok hr => exact handled_same h hb errText self hx hy hr.1 hr.2.1 fun _ => ⟨hr.2.2.2.2.kind, hr.2.2.2.2.events⟩
  exact same_answer hra hrel hkept h ho errText s u self hs hu key.1 key.2

/-- Of a GET, DELETE, HEAD, OPTIONS or TRACE nothing matters but method and target: not the version, not the headers, not
what follows the head. -/
theorem C86_headers {P : σ → Prop} (hra : ReadsApart σ) (hrel : Reliable c P) (hkept : ∀ s n, P s → P (read s n).2)
    (h : Handler c η σ ρ ε) (ho : OnlyReads h) (errText : Err → Bytes) (s u : σ) (self : η) (hs : P s) (hu : P u)
    (m : HttpMethod) (hput : m ≠ .Put) (hpost : m ≠ .Post) (target : Bytes)
    (line line' : Bytes) (major minor major' minor' : Nat) (hist hist' : List (Bytes × Bytes)) (t t' : List Ev)
    (hl : RequestLine line m target major minor) (hl' : RequestLine line' m target major' minor')
    (hd : HeadOf c (trace s) line hist t) (hd' : HeadOf c (trace u) line' hist' t') : SameAnswer h errText s u self := by
  obtain ⟨r, s1, g1, _, g2, g3, _⟩ := C69_request_complete c (BufReader.new c s) line m target ⟨major, minor⟩ hist t hl
    (by rw [BufReader.trace_new]; exact hd)
  obtain ⟨r', u1, k1, _, k2, k3, _⟩ := C69_request_complete c (BufReader.new c u) line' m target ⟨major', minor'⟩ hist' t' hl'
    (by rw [BufReader.trace_new]; exact hd')
  have ha : ∀ q : HttpRequest c (BufReader c σ), q.method = m → Acceptable q := by
    rintro q hq (h | h)
    · exact absurd (hq.symm.trans h) hput
    · exact absurd (hq.symm.trans h) hpost
  refine same_answer hra hrel hkept h ho errText s u self hs hu ?_ ?_ <;>
    rw [serveOneInner_handled h errText self g1 (ha r g2), serveOneInner_handled h errText self k1 (ha r' k2), g2, k2, g3, k3] <;>
    cases m <;> first | rfl | exact absurd rfl hput | exact absurd rfl hpost

/-- Of a PUT or POST nothing matters but method, target, and what can be read from its body. -/
theorem C86_body {P : σ → Prop} (hra : ReadsApart σ) (hrel : Reliable c P) (hkept : ∀ s n, P s → P (read s n).2)
    (h : Handler c η σ ρ ε) (ho : OnlyReads h) (hb : ByContent h) (errText : Err → Bytes) (s u : σ) (self : η) (hs : P s) (hu : P u)
    (r r' : HttpRequest c (BufReader c σ)) (s1 u1 : BufReader c σ)
    (hds : HttpRequest.deserialize c (BufReader.new c s) = (.ok r, s1))
    (hdu : HttpRequest.deserialize c (BufReader.new c u) = (.ok r', u1))
    (hm : r.method = r'.method) (huri : r.uri = r'.uri) (hf : framing r.body = framing r'.body) (ht : trace r.body = trace r'.body) :
    SameAnswer h errText s u self := by
  obtain ⟨h1, h2⟩ := handled_same h hb errText self hds hdu hm huri fun _ => ⟨hf, ht⟩
  exact same_answer hra hrel hkept h ho errText s u self hs hu h1 h2

omit [ZeroReader σ] [LawfulWriter σ] in
theorem request_body {s s' : σ} {r : HttpRequest c σ} (h : HttpRequest.deserialize c s = (.ok r, s')) :
    ∃ n, contentLengthOf r.headers = .ok n ∧ r.body = HttpBody.new c (r.headers.get b!"Transfer-Encoding") n s' := by
  unfold HttpRequest.deserialize parseHead at h
  rcases h1 : expectNext c s with ⟨e | line, s1⟩ <;> rw [h1] at h
  · simp at h
  · rcases h2 : parseRequestLine line with ⟨m, uri, v⟩ | e | _ <;> simp only [h2] at h
    · rcases h3 : HttpHeaders.deserialize c s1 with ⟨hs | e | _, s2⟩ <;> simp only [h3] at h
      · cases hc : contentLengthOf hs with
        | ok n =>
          rw [hc] at h
          simp only [Prod.mk.injEq, Res.ok.injEq] at h
          obtain ⟨rfl, rfl⟩ := h
          exact ⟨n, hc, rfl⟩
        | err e => rw [hc] at h; simp at h
        | panic => rw [hc] at h; simp at h
      · simp at h
      · simp at h
    · simp at h
    · simp at h

omit [LawfulReader σ] [ZeroReader σ] [LawfulWriter σ] in
theorem answers_same {g g' : Bytes → Option Bytes} {hist hist' : List (Bytes × Bytes)} (h : AnswersLike g hist) (h' : AnswersLike g' hist')
    (name : Bytes) (hs : ∀ v, LastWith (fun k => CaseMap.lower k = CaseMap.lower name) hist v ↔
      LastWith (fun k => CaseMap.lower k = CaseMap.lower name) hist' v) : g name = g' name := by
  cases hg : g name with
  | some v => exact (((h' name).1 v).2 ((hs v).1 (((h name).1 v).1 hg))).symm
  | none =>
    cases hg' : g' name with
    | none => rfl
    | some v =>
      have := ((h name).1 v).2 ((hs v).2 (((h' name).1 v).1 hg'))
      rw [hg] at this; simp at this

/-- Of the headers of any request nothing matters but what delimits its body. -/
theorem C86_framing {P : σ → Prop} (hra : ReadsApart σ) (hrel : Reliable c P) (hkept : ∀ s n, P s → P (read s n).2)
    (h : Handler c η σ ρ ε) (ho : OnlyReads h) (hb : ByContent h) (errText : Err → Bytes) (s u : σ) (self : η) (hs : P s) (hu : P u)
    (m : HttpMethod) (target : Bytes) (line line' : Bytes) (major minor major' minor' : Nat) (hist hist' : List (Bytes × Bytes)) (t : List Ev)
    (hl : RequestLine line m target major minor) (hl' : RequestLine line' m target major' minor')
    (hd : HeadOf c (trace s) line hist t) (hd' : HeadOf c (trace u) line' hist' t) (hf : SameFraming hist hist') :
    SameAnswer h errText s u self := by
  obtain ⟨r, s1, g1, g4, g2, g3, _, g5⟩ := C69_request_complete c (BufReader.new c s) line m target ⟨major, minor⟩ hist t hl
    (by rw [BufReader.trace_new]; exact hd)
  obtain ⟨r', u1, k1, k4, k2, k3, _, k5⟩ := C69_request_complete c (BufReader.new c u) line' m target ⟨major', minor'⟩ hist' t hl'
    (by rw [BufReader.trace_new]; exact hd')
  have e1 := answers_same g5 k5 b!"Transfer-Encoding" (by
    rw [lower_const b!"Transfer-Encoding"]
    exact hf _ (.inr (by decide +kernel)))
  have e2 := answers_same g5 k5 b!"Content-Length" (by
    rw [lower_const b!"Content-Length"]
    exact hf _ (.inl (by decide +kernel)))
  obtain ⟨n, a1, a2⟩ := request_body g1
  obtain ⟨n', b1, b2⟩ := request_body k1
  have hn : n = n' := by
    unfold contentLengthOf at a1 b1
    rw [e2] at a1
    rw [a1] at b1
    exact Res.ok.inj b1
  subst hn
  have hsame := sameBody_new (c := c) (s := s1) (u := u1) (g4.trans k4.symm) (r.headers.get b!"Transfer-Encoding") n
  refine C86_body hra hrel hkept h ho hb errText s u self hs hu r r' s1 u1 g1 k1 (g2.trans k2.symm) (g3.trans k3.symm) ?_ ?_
  · rw [a2, b2, ← e1]; exact hsame.kind
  · rw [a2, b2, ← e1]; exact hsame.events

omit [LawfulWriter σ] in
theorem put_byContent (root uri : Bytes) (body body' : HttpBody c (BufReader c σ)) (fs : Fs) (ht : trace body = trace body') :
    (FileHandler.put root uri body fs).1 = (FileHandler.put root uri body' fs).1 ∧
    (FileHandler.put root uri body fs).2.2 = (FileHandler.put root uri body' fs).2.2 := by
  unfold FileHandler.put FileHandler.putOn
  cases fs.create (joinPath root (trimSlashes uri)) with
  | error e => exact ⟨rfl, rfl⟩
  | ok p =>
    obtain ⟨p, fs'⟩ := p
    dsimp only
    obtain ⟨h1, x, h2, h3⟩ := copy_by_trace (sink_reliable c) (sink_reliable c) ht (s := Sink.mk [] 0 []) (u := Sink.mk [] 0 [])
      (by simp) (by simp) 0
    rcases hc : copy c body (Sink.mk [] 0 []) 0 with ⟨a | a, b, s2⟩ <;> rcases hc' : copy c body' (Sink.mk [] 0 []) 0 with ⟨a' | a', b', u2⟩ <;>
      rw [hc] at h1 h2 <;> rw [hc'] at h1 h3 <;> simp only [reduceCtorEq, Except.error.injEq] at h1 <;> dsimp only at h2 h3 ⊢
    · have : sent s2 = sent u2 := h2.trans h3.symm
      rw [h1, this]; exact ⟨rfl, rfl⟩
    · have : sent s2 = sent u2 := h2.trans h3.symm
      rw [this]; exact ⟨rfl, rfl⟩

omit [LawfulWriter σ] in
/-- Both file servers are such handlers. -/
theorem fileHandler_byContent (root : Bytes) (errText : Err → Bytes) : ByContent (fileHandler c σ root errText) :=
  ⟨fun uri body body' fs _ ht => put_byContent root uri body body' fs ht, fun _ _ _ _ _ _ => ⟨rfl, rfl⟩⟩

omit [LawfulWriter σ] in
theorem listingHandler_byContent (readDir : Fs → List Bytes → List Bytes) (root : Bytes) (errText : Err → Bytes) :
    ByContent (listingHandler c σ readDir root errText) :=
  ⟨fun uri body body' fs _ ht => put_byContent root uri body body' fs ht, fun _ _ _ _ _ _ => ⟨rfl, rfl⟩⟩

end

/-- The same bytes in other pieces, and with a pause in the middle of a chunk. -/
def inPieces : Duplex Wire Sink :=
  ⟨⟨[.data b!"PU", .data b!"T /b HTTP/1.1\r\ntransfer-encoding: chunked\r\n\r\n3\r\nn", .data b!"ew\r\n0", .data b!"\r\n\r\n"]⟩, ⟨[], 0, []⟩⟩

/-- Witness for `C86_fragments` and `C86_body`: the file server. -/
example : let _ := asciiCase
    let whole := requestConn b!"PUT /b HTTP/1.1\r\ntransfer-encoding: chunked\r\n\r\n3\r\nnew\r\n0\r\n\r\n"
    SameAnswer (fileHandler ⟨true⟩ (Duplex Wire Sink) b!"/srv" fun _ => []) (fun _ => []) inPieces whole sampleFs := by
  intro inst whole
  exact C86_fragments duplex_readsApart (duplex_reliable (sink_reliable ⟨true⟩)) (fun _ _ h => h) _
    (fileHandler_onlyReads b!"/srv" fun _ => []) (fileHandler_byContent _ _) (fun _ => []) inPieces whole sampleFs
    (by simp [inPieces]) (by simp [whole, requestConn]) (by decide +kernel)

/-! ### C87 -/

section
variable [CaseMap]

theorem root_line : RequestLine b!"GET / HTTP/1.1" .Get b!"/" 1 1 := by
  have h : SendableTarget b!"/" := ⟨by simp, isText_ascii (by decide), by decide, by decide, by unfold HasCrLf; decide⟩
  have := parseRequestLine_ok .Get h
  exact (requestLine_ok_iff (by decide) .Get b!"/" ⟨1, 1⟩).1 (by
    rw [← this]
    congr 1
    decide +kernel)

omit [CaseMap] in
theorem folded_length {raw logical : List Bytes} (h : Folded raw logical) :
    (logical.map fun l => l.length + 2).sum + 2 ≤ (blockBytes raw).length := by
  induction h with
  | nil => simp [blockBytes]
  | @line first conts rest logical h1 h2 _ ih =>
    have hc : ∀ (ls rest : List Bytes), (blockBytes (ls ++ rest)).length ≥ ls.flatten.length + (blockBytes rest).length := by
      intro ls rest
      induction ls with
      | nil => simp
      | cons l ls ih =>
        simp only [blockBytes, List.cons_append, List.flatMap_cons, List.length_append, List.flatten_cons, List.length_cons] at ih ⊢
        omega
    have := hc conts rest
    have h3 : (blockBytes (first :: conts ++ rest)).length = first.length + 2 + (blockBytes (conts ++ rest)).length := by
      simp only [blockBytes, List.cons_append, List.flatMap_cons, List.length_append, List.length_cons, List.length_nil]; omega
    simp only [List.cons_append, List.length_append, List.map_cons, List.sum_cons] at h3 this ⊢
    omega

omit [CaseMap] in
theorem mapInsert_size (k v : Bytes) (m : List (Bytes × Bytes)) :
    ((mapInsert k v m).map fun kv => kv.2.length + 4).sum ≤ (m.map fun kv => kv.2.length + 4).sum + (v.length + 4) := by
  induction m with
  | nil => simp [mapInsert]
  | cons kv m ih =>
    obtain ⟨k', v'⟩ := kv
    simp only [mapInsert]
    split
    · simp only [List.map_cons, List.sum_cons]; omega
    · split
      · simp only [List.map_cons, List.sum_cons]; omega
      · simp only [List.map_cons, List.sum_cons]; omega

omit [CaseMap] in
theorem insertAll_size (hist m : List (Bytes × Bytes)) :
    ((insertAll hist m).map fun kv => kv.2.length + 4).sum ≤
      (m.map fun kv => kv.2.length + 4).sum + (hist.map fun kv => kv.2.length + 4).sum := by
  unfold insertAll
  induction hist generalizing m with
  | nil => simp
  | cons kv hist ih =>
    have h1 := ih (mapInsert kv.1 kv.2 m)
    have h2 := mapInsert_size kv.1 kv.2 m
    simp only [List.foldl_cons, List.map_cons, List.sum_cons]
    omega

/-- What is kept of the header lines of a head is no longer than what was taken, less the start line. -/
theorem head_size {σ : Type} [LawfulReader σ] {α : Type} {c : Cfg} {start : Bytes → Res α} {s s' : σ} {a : α} {hs : HttpHeaders}
    {enc : Option Bytes} {n : Option Nat} (h : parseHead c start s = (.ok (a, hs, enc, n), s')) :
    ∃ line bs, start line = .ok a ∧ RawLine line ∧ Delivers c (trace s) bs (trace s') ∧
      line.length + 4 + (hs.entries.map fun kv => kv.2.length + 4).sum ≤ bs.length := by
  obtain ⟨line, hist, k1, ⟨raw, g1, g2, g3, g4, g5, g6⟩, rfl⟩ := head_entries h
  refine ⟨line, _, k1, g1, g3, ?_⟩
  have hlen := folded_length g4
  have hins := insertAll_size (hist.map fun kv => (CaseMap.lower kv.1, kv.2)) []
  have hsum : ∀ l : List (Bytes × Bytes), (l.map fun kv => kv.2.length + 4).sum ≤
      ((l.map fun kv => kv.1 ++ [58, 32] ++ kv.2).map fun l => l.length + 2).sum := by
    intro l
    induction l with
    | nil => simp
    | cons kv l ih =>
      simp only [List.map_cons, List.sum_cons, List.length_append, List.length_cons, List.length_nil] at ih ⊢
      omega
  have hall := Nat.le_trans (Nat.add_le_add_right (hsum hist) 2) hlen
  simp only [List.map_map, Function.comp_def, List.map_nil, List.sum_nil] at hins
  simp only [blockBytes, List.flatMap_cons, List.length_append, List.length_cons, List.length_nil] at hall ⊢
  omega

/-- Full statement: the parser refuses a head longer than some bound. What holds: what it keeps of a head, all headers
together, is no longer than what the peer sent; each header that is kept costs the peer four bytes more than its value. -/
theorem C87_head_partial {σ : Type} [LawfulReader σ] (c : Cfg) (s s' : σ) (r : HttpRequest c σ)
    (h : HttpRequest.deserialize c s = (.ok r, s')) :
    ∃ bs, Delivers c (trace s) bs (trace s') ∧
      r.uri.length + (r.headers.entries.map fun kv => kv.2.length + 4).sum ≤ bs.length := by
  unfold HttpRequest.deserialize at h
  rcases h1 : parseHead c parseRequestLine s with ⟨⟨⟨m, uri, v⟩, hs, enc, n⟩ | e | _, s1⟩ <;> rw [h1] at h
  · simp only [Prod.mk.injEq, Res.ok.injEq] at h
    obtain ⟨rfl, rfl⟩ := h
    obtain ⟨line, bs, k1, k2, k3, k4⟩ := head_size h1
    refine ⟨bs, k3, ?_⟩
    have hline : uri.length ≤ line.length := by
      obtain ⟨v, ⟨tok, a, b, rest, e, _⟩, _⟩ := (requestLine_ok_iff ((validUtf8_iff _).2 k2.2.2) _ _ _).1 k1
      rw [e]; simp only [List.length_append]; omega
    dsimp only
    omega
  · simp at h
  · simp at h

/-- The same for responses. -/
theorem C87_response_partial {σ : Type} [LawfulReader σ] (c : Cfg) (s s' : σ) (r : HttpResponse c (BufReader c σ))
    (h : HttpResponse.deserialize c s = (.ok r, s')) :
    ∃ bs, Delivers c (trace s) bs (trace s') ∧ (r.headers.entries.map fun kv => kv.2.length + 4).sum ≤ bs.length := by
  unfold HttpResponse.deserialize at h
  rcases h1 : parseHead c parseStatusLine s with ⟨⟨⟨v, st⟩, hs, enc, n⟩ | e | _, s1⟩ <;> rw [h1] at h
  · simp only [Prod.mk.injEq, Res.ok.injEq] at h
    obtain ⟨rfl, rfl⟩ := h
    obtain ⟨line, bs, k1, k2, k3, k4⟩ := head_size h1
    exact ⟨bs, k3, by dsimp only; omega⟩
  · simp at h
  · simp at h

/-- A head with a long header. -/
def longHead (line : Bytes) (n : Nat) : Bytes := blockBytes [line, b!"x" ++ [58, 32] ++ List.replicate (n + 1) (97 : UInt8)]

theorem longHead_of (c : Cfg) {line : Bytes} (hl : RawLine line) (n : Nat) :
    HeadOf c (trace (Wire.mk [.data (longHead line n)])) line [(b!"x", List.replicate (n + 1) 97)] [] := by
  have hv : isAscii (List.replicate (n + 1) (97 : UInt8)) = true := by
    unfold isAscii
    simp
  have hno : (13 : UInt8) ∉ b!"x" ++ [58, 32] ++ List.replicate (n + 1) (97 : UInt8) := by
    simp [List.mem_replicate]
  have hraw : RawLine (b!"x" ++ [58, 32] ++ List.replicate (n + 1) (97 : UInt8)) := by
    refine ⟨by simp, fun hc => ?_, isText_ascii ?_⟩
    · exact hno (hc.subset (by simp))
    · unfold isAscii at hv ⊢
      rw [List.all_append, hv]; decide
  refine ⟨[b!"x" ++ [58, 32] ++ List.replicate (n + 1) (97 : UInt8)], hl, by simpa using hraw, ?_, ?_, by simp, ?_⟩
  · rw [Wire.trace_eq]
    show Delivers c ((longHead line n).map Ev.byte ++ []) (longHead line n) []
    exact delivers_map c _ []
  · have := Folded.line (first := b!"x" ++ [58, 32] ++ List.replicate (n + 1) (97 : UInt8)) (conts := []) (rest := [])
      (logical := []) (by simp) (by simp) .nil
    simpa using this
  · rintro v ⟨pre, k, post, e, e2, _⟩
    have hk : k = b!"x" := by
      have : (k, v) ∈ [(b!"x", List.replicate (n + 1) (97 : UInt8))] := by rw [e]; simp
      simp only [List.mem_singleton, Prod.mk.injEq] at this
      exact this.1
    rw [hk, lower_const b!"x"] at e2
    exact absurd e2 (by decide +kernel)

/-- False: there is no bound, already for the value of one header. -/
theorem C87_head_false (c : Cfg) : ¬ ∃ n, ∀ (s s' : Wire) (r : HttpRequest c Wire),
    HttpRequest.deserialize c s = (.ok r, s') → ∀ name v, r.headers.get name = some v → v.length ≤ n := by
  rintro ⟨n, h⟩
  obtain ⟨r, s', h1, _, _, _, _, h2⟩ := C69_request_complete c _ _ .Get b!"/" ⟨1, 1⟩
    [(b!"x", List.replicate (n + 1) 97)] [] root_line
    (longHead_of c ⟨by decide, by unfold HasCrLf; decide, isText_ascii (by decide)⟩ n)
  have h3 := h _ _ _ h1 b!"x" (List.replicate (n + 1) 97) (((h2 b!"x").1 _).2 ⟨[], _, [], rfl, rfl, by simp⟩)
  simp at h3
  omega

/-- The same for responses. -/
theorem C87_response_false (c : Cfg) : ¬ ∃ n, ∀ (s s' : Wire) (r : HttpResponse c (BufReader c Wire)),
    HttpResponse.deserialize c s = (.ok r, s') → ∀ name v, r.headers.get name = some v → v.length ≤ n := by
  rintro ⟨n, h⟩
  have hv : parseStatusLine b!"HTTP/1.1 200 OK" = .ok (⟨1, 1⟩, .OK) := by decide +kernel
  obtain ⟨code, hcode, _⟩ := (statusLine_ok_iff (by decide +kernel) _ _).1 hv
  obtain ⟨r, s', h1, _, _, _, h2⟩ := C69_response_complete c _ _ ⟨1, 1⟩ code
    [(b!"x", List.replicate (n + 1) 97)] [] hcode
    (longHead_of c ⟨by decide, by unfold HasCrLf; decide, isText_ascii (by decide)⟩ n)
  have h3 := h _ _ _ h1 b!"x" (List.replicate (n + 1) 97) (((h2 b!"x").1 _).2 ⟨[], _, [], rfl, rfl, by simp⟩)
  simp at h3
  omega

end

/-! ### C88 -/

section
variable [CaseMap] {c : Cfg} {η σ ρ ε : Type} [LawfulReader σ] [ZeroReader σ] [LawfulWriter σ] [LawfulReader ρ] [ZeroReader ρ]

/-- Full statement (RFC 7230, section 5.4): a request without a Host header, or with more than one, is answered with 400.
What holds: Host headers are ignored. Two requests that differ in nothing else are answered alike. -/
theorem C88_host_partial {P : σ → Prop} (hra : ReadsApart σ) (hrel : Reliable c P) (hkept : ∀ s n, P s → P (read s n).2)
    (h : Handler c η σ ρ ε) (ho : OnlyReads h) (hb : ByContent h) (errText : Err → Bytes) (s u : σ) (self : η) (hs : P s) (hu : P u)
    (m : HttpMethod) (target : Bytes) (line : Bytes) (major minor : Nat) (hist hist' : List (Bytes × Bytes)) (t : List Ev)
    (hl : RequestLine line m target major minor)
    (hd : HeadOf c (trace s) line hist t) (hd' : HeadOf c (trace u) line hist' t)
    (hh : hist.filter (fun kv => CaseMap.lower kv.1 ≠ utf8 "host") = hist'.filter (fun kv => CaseMap.lower kv.1 ≠ utf8 "host")) :
    SameAnswer h errText s u self := by
  have key : ∀ (name : Bytes) (hn : name ≠ utf8 "host") (hist : List (Bytes × Bytes)) (v : Bytes),
      LastWith (fun k => CaseMap.lower k = name) hist v ↔
      LastWith (fun k => CaseMap.lower k = name) (hist.filter fun kv => CaseMap.lower kv.1 ≠ utf8 "host") v := by
    intro name hn hist v
    constructor
    · rintro ⟨pre, k, post, rfl, h1, h2⟩
      refine ⟨pre.filter (fun kv => CaseMap.lower kv.1 ≠ utf8 "host"), k, post.filter (fun kv => CaseMap.lower kv.1 ≠ utf8 "host"),
        ?_, h1, fun kv hkv => h2 kv (List.mem_filter.1 hkv).1⟩
      rw [List.filter_append, List.filter_cons_of_pos]
      simp only [ne_eq, decide_not, Bool.not_eq_eq_eq_not, Bool.not_true, decide_eq_false_iff_not]
      rw [h1]; exact hn
    · rintro ⟨pre, k, post, e, h1, h2⟩
      obtain ⟨a, b, e1, e2, e3⟩ := List.filter_eq_append_iff.1 e
      obtain ⟨a', b', f1, f2, f3, f4⟩ := List.filter_eq_cons_iff.1 e3
      refine ⟨a ++ a', k, b', by rw [e1, f1]; simp, h1, fun kv hkv hc => ?_⟩
      refine h2 kv ?_ hc
      rw [← f4]
      refine List.mem_filter.2 ⟨hkv, ?_⟩
      simp only [ne_eq, decide_not, Bool.not_eq_eq_eq_not, Bool.not_true, decide_eq_false_iff_not]
      dsimp only at hc
      rw [hc]; exact hn
  refine C86_framing hra hrel hkept h ho hb errText s u self hs hu m target line line major minor major minor hist hist' t hl hl hd hd' ?_
  intro name hname v
  have hn : name ≠ utf8 "host" := by
    rcases hname with rfl | rfl <;> decide +kernel
  rw [key name hn hist, key name hn hist', hh]

end

/-- False: requests with two Host headers and with none are served. -/
theorem C88_host_false (c : Cfg) : let _ := asciiCase
    let server := fileHandler c (Duplex Wire Sink) b!"/srv" fun _ => []
    let get (s : String) := (server.serveOne (fun _ => []) (.ok (requestConn (utf8 s))) sampleFs).2.1.map sent
    get "GET /a HTTP/1.1\r\n\r\n" = some (utf8 "HTTP/1.1 200 OK\r\n\r\nold") ∧
    get "GET /a HTTP/1.1\r\nhost: a\r\nhost: b\r\n\r\n" = some (utf8 "HTTP/1.1 200 OK\r\n\r\nold") := by
  intro inst server get
  constructor <;> rcases c with ⟨_ | _⟩ <;> decide +kernel

/-- Witness for `C86_headers`, `C86_framing` and `C88_host_partial`: one request without headers, one with a Host header and
with bytes after the head. -/
example : let _ := asciiCase
    let s := requestConn (utf8 "GET / HTTP/1.1\r\n\r\nrest")
    let u := requestConn (utf8 "GET / HTTP/1.1\r\nHost: a\r\n\r\nrest")
    HeadOf ⟨true⟩ (trace s) b!"GET / HTTP/1.1" [] (b!"rest".map Ev.byte) ∧
    HeadOf ⟨true⟩ (trace u) b!"GET / HTTP/1.1" [(b!"Host", b!"a")] (b!"rest".map Ev.byte) ∧
    SameAnswer (fileHandler ⟨true⟩ (Duplex Wire Sink) b!"/srv" fun _ => []) (fun _ => []) s u sampleFs := by
  intro inst s u
  have hl : RawLine b!"GET / HTTP/1.1" := ⟨by decide, by unfold HasCrLf; decide, isText_ascii (by decide)⟩
  have hh : RawLine b!"Host: a" := ⟨by decide, by unfold HasCrLf; decide, isText_ascii (by decide)⟩
  have h1 : HeadOf ⟨true⟩ (trace s) b!"GET / HTTP/1.1" [] (b!"rest".map Ev.byte) := by
    refine ⟨[], hl, by simp, ?_, .nil, by simp, ?_⟩
    · have : trace s = (blockBytes [b!"GET / HTTP/1.1"]).map Ev.byte ++ b!"rest".map Ev.byte := by decide +kernel
      rw [this]; exact delivers_map _ _ _
    · rintro v ⟨pre, k, post, e, _⟩
      simp at e
  have h2 : HeadOf ⟨true⟩ (trace u) b!"GET / HTTP/1.1" [(b!"Host", b!"a")] (b!"rest".map Ev.byte) := by
    refine ⟨[b!"Host: a"], hl, by simpa using hh, ?_, ?_, by simp, ?_⟩
    · have : trace u = (blockBytes [b!"GET / HTTP/1.1", b!"Host: a"]).map Ev.byte ++ b!"rest".map Ev.byte := by decide +kernel
      rw [this]; exact delivers_map _ _ _
    · exact Folded.line (first := b!"Host: a") (conts := []) (rest := []) (by simp) (by simp) .nil
    · rintro v ⟨pre, k, post, e, e2, _⟩
      have hk : (k, v) ∈ [(b!"Host", b!"a")] := by rw [e]; simp
      simp only [List.mem_singleton, Prod.mk.injEq] at hk
      rw [hk.1] at e2
      exact absurd e2 (by decide +kernel)
  exact ⟨h1, h2, C88_host_partial duplex_readsApart (duplex_reliable (sink_reliable ⟨true⟩)) (fun _ _ h => h) _
    (fileHandler_onlyReads b!"/srv" fun _ => []) (fileHandler_byContent _ _) (fun _ => []) s u sampleFs
    (by simp [s, requestConn]) (by simp [u, requestConn]) .Get b!"/" _ 1 1 _ _ _ root_line h1 h2 (by decide +kernel)⟩

/-- Witness for `C87_head_partial`. -/
example : let _ := asciiCase
    (match HttpRequest.deserialize ⟨false⟩ (Wire.mk [.data b!"GET / HTTP/1.1\r\nHost: a\r\n\r\n"]) with
      | (.ok r, _) => decide (r.uri = b!"/" ∧ r.headers.entries = [(b!"host", b!"a")])
      | _ => false) = true := by
  intro inst
  decide +kernel

/-- Witness for `C87_response_partial`. -/
example : let _ := asciiCase
    (match HttpResponse.deserialize ⟨false⟩ (Wire.mk [.data b!"HTTP/1.1 200 OK\r\nA: b\r\n\r\n"]) with
      | (.ok r, _) => decide (r.headers.entries = [(b!"a", b!"b")])
      | _ => false) = true := by
  intro inst
  decide +kernel

end HttpIo
