import Verif.Spec.TestServer
import Verif.Props.Conventions
import Verif.Props.EndToEnd

/-! C118: servers that follow a script, as those of the crate's tests. -/

namespace HttpIo
open Spec

section
variable [CaseMap] {c : Cfg} {η σ ρ ε : Type} [LawfulReader σ] [ZeroReader σ] [LawfulWriter σ] [LawfulReader ρ] [ZeroReader ρ]

/-- The handler after `serve_one`, if it does not mind that the response is dropped. -/
theorem serveOne_state (h : Handler c η σ ρ ε) (hr : ∀ b x, h.release b x = x) (errText : Err → Bytes) (s : σ) (self : η) :
    (h.serveOne errText (.ok s) self).2.2 = (h.serveOneInner errText s self).2.2 := by
  unfold Handler.serveOne
  dsimp only
  rcases h.serveOneInner errText s self with ⟨r | r | _, s1, x⟩
  · dsimp only; rcases respond c r s1 with ⟨_ | _, _, _⟩ <;> exact hr _ _
  · dsimp only; rcases respond c r s1 with ⟨_ | _, _, _⟩ <;> rfl
  · rfl

omit [LawfulWriter σ] in
/-- A request that is brought is parsed as what it is, and acceptable. -/
theorem brings_parsed {s : σ} {m : HttpMethod} {target body : Bytes} (hb : Brings c s m target body) :
    ∃ r s1, HttpRequest.deserialize c (BufReader.new c s) = (.ok r, s1) ∧ r.method = m ∧ r.uri = target ∧ Acceptable r ∧
      (m = .Put ∨ m = .Post → trace r.body = body.map .byte) := by
  obtain ⟨headers, t, h1, h2, h3, h4, h5⟩ := hb
  by_cases hm : m = .Put ∨ m = .Post
  · obtain ⟨rest, h6⟩ := h5 hm
    obtain ⟨r, s1, g1, g2, g3, g4, g5⟩ := bodyThen_trace h1 h2 h3 h4 h6
    refine ⟨r, s1, g1, g2, g3, fun _ hf => ?_, fun _ => g5⟩
    rw [hf] at g4
    cases h6 with
    | chunked _ _ h _ _ _ _ => have := framedBy_unique h2.1 g4 h; simp at this
    | limited h _ => have := framedBy_unique h2.1 g4 h; simp at this
  · obtain ⟨r, s1, g1, g2, g3, _⟩ := C18_roundtrip c (BufReader.new c s) m target headers t h1 h2 h3
      (by rw [BufReader.trace_new]; exact h4)
    exact ⟨r, s1, g1, g2, g3, fun h => absurd (g2 ▸ h) hm, fun h => absurd h hm⟩

omit [LawfulWriter σ] in
theorem testHandler_onlyReads : OnlyReads (testHandler c σ) := by
  refine ⟨fun uri body script => ?_, fun uri body script => ⟨[], rfl⟩⟩
  show ∃ sizes, (TestRequestHandler.put uri body script).2.1 = _
  unfold TestRequestHandler.put
  cases script with
  | nil => exact ⟨[], rfl⟩
  | cons e rest =>
    dsimp only
    split
    · exact ⟨[], rfl⟩
    split
    · exact ⟨[], rfl⟩
    obtain ⟨sizes, h, _⟩ := copy_calls c body (Sink.mk [] 0 []) 0
    split
    · rename_i hc; rw [hc] at h; exact ⟨sizes, h⟩
    · rename_i hc; rw [hc] at h
      split
      · exact ⟨sizes, h⟩
      split <;> exact ⟨sizes, h⟩

omit [LawfulReader ρ] [ZeroReader ρ] in
/-- Headers added one by one to a response. -/
theorem addHeaders_fold (l : List (Bytes × Bytes)) (r : ServerResponse c ρ) :
    (l.foldl (fun res kv => res.addHeader kv.1 kv.2) r) =
      { r with headers := l.foldl (fun h kv => h.insert kv.1 kv.2) r.headers } := by
  induction l generalizing r with
  | nil => rfl
  | cons kv l ih => rw [List.foldl_cons, ih]; rfl

omit [CaseMap] [LawfulWriter σ] in
/-- `read_to_string` of a body that arrives whole. -/
theorem collects (body : HttpBody c (BufReader c σ)) (bs : Bytes) (hy : trace body = bs.map .byte) :
    ∃ k b f, copy c body (Sink.mk [] 0 []) 0 = (.ok k, b, f) ∧ f.got = bs := by
  have hd : Delivers c (trace body) bs [] := by rw [hy]; simpa using delivers_map c bs []
  obtain ⟨k, b, f, h1, _⟩ := (sink_reliable c).copy_ok (r := body) (s := Sink.mk [] 0 []) (n := 0) (by simp)
    (bs := bs) (t' := []) hd (by simp [Ended])
  obtain ⟨bs', t', h2, h3, h4, _⟩ := C33_copy_ok c _ _ _ _ _ _ h1
  have : bs' = bs := Delivers.ended_unique h2 h3 hd (by simp [Ended])
  exact ⟨k, b, f, h1, by rw [show f.got = _ from h4, this]; rfl⟩

end

section
variable [CaseMap] {c : Cfg} {σ : Type} [LawfulReader σ] [ZeroReader σ] [LawfulWriter σ]

/-- A GET or PUT as the first entry of the script expects it: it is answered as the entry says, and the entry is used up. -/
theorem C118_met {P : σ → Prop} (hra : ReadsApart σ) (hrel : Reliable c P) (hkept : ∀ s n, P s → P (read s n).2)
    (errText : Err → Bytes) (s : σ) (hs : P s) (e : ExpectedRequest) (rest : List ExpectedRequest) (m : HttpMethod)
    (target body : Bytes) (hm : m = .Get ∨ m = .Put) (hb : Brings c s m target body) (he : Met e m target body)
    (hh : SortedNames e.responseHeaders.entries ∧ ∀ kv ∈ e.responseHeaders.entries, CaseMap.lower kv.1 = kv.1) :
    ((testHandler c σ).serveOne errText (.ok s) (e :: rest)).1 = .ok () ∧
    ((testHandler c σ).serveOne errText (.ok s) (e :: rest)).2.2 = rest ∧
    ∃ d, ((testHandler c σ).serveOne errText (.ok s) (e :: rest)).2.1 = some d ∧ P d ∧ sent d = sent s ++ scripted e := by
  obtain ⟨r, s1, g1, g2, g3, g4, g5⟩ := brings_parsed hb
  obtain ⟨e1, e2, e3⟩ := he
  have hi := serveOneInner_handled (testHandler c σ) errText (e :: rest) g1 g4
  rw [g2, g3] at hi
  obtain ⟨v1, v2, v3, t', v4, v5⟩ := fromString_body (c := c) (ρ := Wire) e.responseStatus e.responseBody
  have key : ∃ a b, handled (testHandler c σ) m target r.body (e :: rest) = (.ok a, b, rest) ∧ a.version = ⟨1, 1⟩ ∧
      a.status = e.responseStatus ∧ a.headers.entries = (if e.expectedMethod = .Get then e.responseHeaders.entries else []) ∧
      Delivers c (trace a.body) e.responseBody t' := by
    rcases hm with rfl | rfl
    · have hg : handled (testHandler c σ) .Get target r.body (e :: rest) =
          ((TestRequestHandler.get c target (e :: rest)).1, r.body, (TestRequestHandler.get c target (e :: rest)).2) := rfl
      rw [hg]
      unfold TestRequestHandler.get
      dsimp only
      rw [if_neg (by simp [e1]), if_neg (by simp [e2]), addHeaders_fold]
      refine ⟨_, _, rfl, v1, v2, ?_, v4⟩
      dsimp only
      have hl : (e.responseHeaders.entries.map fun kv => (CaseMap.lower kv.1, kv.2)) = e.responseHeaders.entries.map id :=
        List.map_congr_left fun kv hkv => by rw [hh.2 kv hkv]; rfl
      rw [if_pos e1, insert_fold, v3, hl, List.map_id, insertAll_self hh.1]
    · have hp : handled (testHandler c σ) .Put target r.body (e :: rest) = TestRequestHandler.put target r.body (e :: rest) := rfl
      rw [hp]
      unfold TestRequestHandler.put
      dsimp only
      obtain ⟨f1, f2⟩ := e3 rfl
      obtain ⟨k, b, f, c1, c2⟩ := collects r.body body (g5 (.inl rfl))
      rw [if_neg (by simp [e1]), if_neg (by simp [e2]), c1]
      dsimp only
      rw [c2, if_neg (by simp [(validUtf8_iff body).2 f2]), if_neg (by simp [f1])]
      exact ⟨_, _, rfl, v1, v2, by rw [v3, if_neg (by simp [e1])], v4⟩
  obtain ⟨a, b, k1, k2, k3, k4, k5⟩ := key
  rw [k1] at hi
  obtain ⟨w1, d, w2, w3, w4⟩ := serve_succeeds hra hrel hkept (testHandler c σ) testHandler_onlyReads errText s (e :: rest) hs a
    (.inl (by rw [hi]; rfl)) k2 _ _ k5 v5
  refine ⟨w1, ?_, d, w2, w3, ?_⟩
  · rw [serveOne_state (testHandler c σ) (fun _ _ => rfl), hi]
  · rw [w4, k3, k4, List.append_assoc]; rfl

/-- A GET or PUT that is not what the first entry of the script expects (or there is no entry): the server panics, having sent
nothing; the entry is used up. -/
theorem C118_unmet (hra : ReadsApart σ) (errText : Err → Bytes) (s : σ) (script : List ExpectedRequest) (m : HttpMethod)
    (target body : Bytes) (hm : m = .Get ∨ m = .Put) (hb : Brings c s m target body)
    (hs : ∀ e, script.head? = some e → ¬ Met e m target body) :
    ((testHandler c σ).serveOne errText (.ok s) script).1 = .panic ∧
    ((testHandler c σ).serveOne errText (.ok s) script).2.2 = script.tail ∧
    ∃ d, ((testHandler c σ).serveOne errText (.ok s) script).2.1 = some d ∧ sent d = sent s := by
  obtain ⟨r, s1, g1, g2, g3, g4, g5⟩ := brings_parsed hb
  have hi := serveOneInner_handled (testHandler c σ) errText script g1 g4
  rw [g2, g3] at hi
  have key : ∃ b, handled (testHandler c σ) m target r.body script = (.panic, b, script.tail) := by
    rcases hm with rfl | rfl
    · refine ⟨r.body, ?_⟩
      have hg : handled (testHandler c σ) .Get target r.body script =
          ((TestRequestHandler.get c target script).1, r.body, (TestRequestHandler.get c target script).2) := rfl
      rw [hg]
      cases script with
      | nil => rfl
      | cons e rest =>
        have := hs e rfl
        unfold TestRequestHandler.get
        dsimp only
        by_cases h1 : e.expectedMethod = .Get
        · rw [if_neg (by simp [h1]), if_pos (fun h2 => this ⟨h1, h2, by simp⟩)]; rfl
        · rw [if_pos h1]; rfl
    · have hp : handled (testHandler c σ) .Put target r.body script = TestRequestHandler.put target r.body script := rfl
      rw [hp]
      cases script with
      | nil => exact ⟨_, rfl⟩
      | cons e rest =>
        have := hs e rfl
        unfold TestRequestHandler.put
        dsimp only
        by_cases h1 : e.expectedMethod = .Put
        · rw [if_neg (by simp [h1])]
          by_cases h2 : e.expectedUri = target
          · rw [if_neg (by simp [h2])]
            obtain ⟨k, b, f, c1, c2⟩ := collects r.body body (g5 (.inl rfl))
            rw [c1]
            dsimp only
            rw [c2]
            cases h3 : validUtf8 body with
            | false => exact ⟨b, rfl⟩
            | true =>
              rw [if_neg (by simp), if_pos (fun h4 => this ⟨h1, h2, fun _ => ⟨h4, (validUtf8_iff body).1 h3⟩⟩)]
              exact ⟨b, rfl⟩
          · rw [if_pos h2]; exact ⟨_, rfl⟩
        · rw [if_pos h1]; exact ⟨_, rfl⟩
  obtain ⟨b, k⟩ := key
  rw [k] at hi
  have hsent := inner_sent hra (testHandler c σ) testHandler_onlyReads errText s script
  rw [serveOne_state (testHandler c σ) (fun _ _ => rfl)]
  unfold Handler.serveOne
  dsimp only
  rw [hi] at hsent ⊢
  exact ⟨rfl, rfl, _, rfl, hsent⟩

/-- Every other request is refused with 405, whatever the script says, and no entry is used up. -/
theorem C118_other {P : σ → Prop} (hra : ReadsApart σ) (hrel : Reliable c P) (hkept : ∀ s n, P s → P (read s n).2)
    (errText : Err → Bytes) (s : σ) (hs : P s) (script : List ExpectedRequest) (m : HttpMethod)
    (target body : Bytes) (hm : m ≠ .Get ∧ m ≠ .Put) (hb : Brings c s m target body) :
    ((testHandler c σ).serveOne errText (.ok s) script).1 = .ok () ∧
    ((testHandler c σ).serveOne errText (.ok s) script).2.2 = script ∧
    ∃ d, ((testHandler c σ).serveOne errText (.ok s) script).2.1 = some d ∧ P d ∧
      sent d = sent s ++ responseHead (utf8 "405 Method Not Allowed") [] ++ utf8 (refusal m) := by
  obtain ⟨r, s1, g1, g2, g3, g4, _⟩ := brings_parsed hb
  have hi := serveOneInner_handled (testHandler c σ) errText script g1 g4
  rw [g2, g3] at hi
  obtain ⟨a, k1, k2, _, k3, k4, k5⟩ := C53_default (ρ := Wire) (id : ServerResponse c Wire → _) m target r.body script
  have : handled (testHandler c σ) m target r.body script =
      handled (Handler.defaults c (List ExpectedRequest) σ Wire (ServerResponse c Wire) id) m target r.body script := by
    cases m <;> first | rfl | exact absurd rfl hm.1 | exact absurd rfl hm.2
  rw [this, k1] at hi
  obtain ⟨w1, d, w2, w3, w4⟩ := serve_succeeds hra hrel hkept (testHandler c σ) testHandler_onlyReads errText s script hs a
    (.inl (by rw [hi]; rfl)) k3 (utf8 (refusal m)) []
    (by rw [trace_of_yields k5]; simpa using delivers_map c _ []) (by simp [Ended])
  refine ⟨w1, ?_, d, w2, w3, ?_⟩
  · rw [serveOne_state (testHandler c σ) (fun _ _ => rfl), hi]
  · rw [w4, k2, k4]

/-- Connections with the requests of the script, in its order: `serve_forever` answers all of them as the script says, and nothing
is left of it (so that the check when the handler is dropped succeeds). -/
theorem C118_script {P : σ → Prop} (hra : ReadsApart σ) (hrel : Reliable c P) (hkept : ∀ s n, P s → P (read s n).2)
    (errText : Err → Bytes) (run : List (σ × ExpectedRequest)) (rest : List ExpectedRequest)
    (hrun : ∀ p ∈ run, Awaited c P p.1 p.2) :
    ∃ ds : List σ, (testHandler c σ).serveForever errText (run.map fun p => .ok p.1) (run.map Prod.snd ++ rest) =
        (ds.map fun d => (.ok (), some d), rest) ∧
      ds.map sent = run.map fun p => sent p.1 ++ scripted p.2 := by
  induction run with
  | nil => exact ⟨[], rfl, rfl⟩
  | cons p run ih =>
    obtain ⟨s, e⟩ := p
    obtain ⟨ds, h1, h2⟩ := ih fun p hp => hrun p (List.mem_cons_of_mem _ hp)
    obtain ⟨a1, a2, a3, a4, a5⟩ := hrun (s, e) List.mem_cons_self
    obtain ⟨w1, w2, d, w3, _, w4⟩ := C118_met hra hrel hkept errText s a1 e (run.map Prod.snd ++ rest) e.expectedMethod
      e.expectedUri e.expectedBody a2 a3 ⟨rfl, rfl, fun _ => ⟨rfl, a4⟩⟩ a5
    refine ⟨d :: ds, ?_, by rw [List.map_cons, h2, w4]; rfl⟩
    rcases hx : (testHandler c σ).serveOne errText (.ok s) (e :: (run.map Prod.snd ++ rest)) with ⟨x, y, z⟩
    rw [hx] at w1 w2 w3
    dsimp only at w1 w2 w3
    subst w1 w2 w3
    rw [List.map_cons, List.map_cons, List.cons_append, Handler.serveForever]
    dsimp only
    rw [hx]
    dsimp only
    rw [h1]
    rfl

/-- A test passes exactly when the client follows the script: the server serves every request, and dropping it succeeds, if and
only if the requests that came are those of the script. -/
theorem C118_exact {P : σ → Prop} (hra : ReadsApart σ) (hrel : Reliable c P) (hkept : ∀ s n, P s → P (read s n).2)
    (errText : Err → Bytes) (run : List (σ × HttpMethod × Bytes × Bytes)) (script : List ExpectedRequest)
    (hrun : ∀ p ∈ run, P p.1 ∧ Brings c p.1 p.2.1 p.2.2.1 p.2.2.2)
    (hh : ∀ e ∈ script, SortedNames e.responseHeaders.entries ∧ ∀ kv ∈ e.responseHeaders.entries, CaseMap.lower kv.1 = kv.1) :
    (∀ r ∈ ((testHandler c σ).serveForever errText (run.map fun p => .ok p.1) script).1, r.1 = .ok ()) ∧
        TestRequestHandler.drop ((testHandler c σ).serveForever errText (run.map fun p => .ok p.1) script).2 = .ok () ↔
      Follows (run.map Prod.snd) script := by
  induction run generalizing script with
  | nil =>
    simp only [List.map_nil, Handler.serveForever, TestRequestHandler.drop]
    cases script with
    | nil => simp [Follows.nil]
    | cons e script =>
      constructor
      · intro h; simp at h
      · intro h; cases h
  | cons p run ih =>
    obtain ⟨s, m, target, body⟩ := p
    obtain ⟨hs, hb⟩ := hrun _ List.mem_cons_self
    dsimp only at hs hb
    have hrun' := fun p hp => hrun p (List.mem_cons_of_mem _ hp)
    have step : ∀ left, (∀ e ∈ left, e ∈ script) → ((testHandler c σ).serveOne errText (.ok s) script).1 = .ok () →
        ((testHandler c σ).serveOne errText (.ok s) script).2.2 = left →
        (((∀ r ∈ ((testHandler c σ).serveForever errText (((s, m, target, body) :: run).map fun p => .ok p.1) script).1,
            r.1 = .ok ()) ∧
          TestRequestHandler.drop
            ((testHandler c σ).serveForever errText (((s, m, target, body) :: run).map fun p => .ok p.1) script).2 = .ok ()) ↔
        Follows (run.map Prod.snd) left) := by
      intro left hsub h1 h2
      rw [← ih left hrun' fun e he => hh e (hsub e he)]
      rcases hx : (testHandler c σ).serveOne errText (.ok s) script with ⟨x, y, z⟩
      rw [hx] at h1 h2
      dsimp only at h1 h2
      subst h1 h2
      rw [List.map_cons, Handler.serveForever]
      dsimp only
      rw [hx]
      simp
    by_cases hm : m = .Get ∨ m = .Put
    · have unmet : (∀ e, script.head? = some e → ¬ Met e m target body) →
          ¬ ((∀ r ∈ ((testHandler c σ).serveForever errText (((s, m, target, body) :: run).map fun p => .ok p.1) script).1,
            r.1 = .ok ()) ∧
          TestRequestHandler.drop
            ((testHandler c σ).serveForever errText (((s, m, target, body) :: run).map fun p => .ok p.1) script).2 = .ok ()) := by
        rintro hne ⟨h1, _⟩
        obtain ⟨w1, _⟩ := C118_unmet hra errText s script m target body hm hb hne
        rcases hx : (testHandler c σ).serveOne errText (.ok s) script with ⟨x, y, z⟩
        rw [hx] at w1
        dsimp only at w1
        subst w1
        rw [List.map_cons, Handler.serveForever] at h1
        dsimp only at h1
        rw [hx] at h1
        simp at h1
      have hno : ¬ (m ≠ .Get ∧ m ≠ .Put) := by
        rintro ⟨h1, h2⟩
        rcases hm with h | h
        · exact h1 h
        · exact h2 h
      cases script with
      | nil =>
        refine iff_of_false (unmet (by simp)) fun h => ?_
        cases h with
        | other h _ => exact hno h
      | cons e script =>
        by_cases he : Met e m target body
        · obtain ⟨w1, w2, _⟩ := C118_met hra hrel hkept errText s hs e script m target body hm hb he (hh e List.mem_cons_self)
          rw [step script (fun e he => List.mem_cons_of_mem _ he) w1 w2]
          constructor
          · exact fun h => .met hm he h
          · intro h
            cases h with
            | met _ _ h => exact h
            | other h _ => exact absurd h hno
        · refine iff_of_false (unmet (by simpa using he)) fun h => ?_
          cases h with
          | met _ h _ => exact he h
          | other h _ => exact hno h
    · have hm' : m ≠ .Get ∧ m ≠ .Put := ⟨fun h => hm (.inl h), fun h => hm (.inr h)⟩
      obtain ⟨w1, w2, _⟩ := C118_other hra hrel hkept errText s hs script m target body hm' hb
      rw [step script (fun _ h => h) w1 w2]
      constructor
      · exact fun h => .other hm' h
      · intro h
        cases h with
        | met h _ _ => exact absurd h hm
        | other _ h => exact h

/-- `LendingHandler` answers every GET and every PUT with its data. -/
theorem C118_lending {P : σ → Prop} (hra : ReadsApart σ) (hrel : Reliable c P) (hkept : ∀ s n, P s → P (read s n).2)
    (errText : Err → Bytes) (s : σ) (hs : P s) (data : Bytes) (m : HttpMethod) (target body : Bytes) (hm : m = .Get ∨ m = .Put)
    (hb : Brings c s m target body) :
    ((lendingHandler c σ).serveOne errText (.ok s) data).1 = .ok () ∧
    ((lendingHandler c σ).serveOne errText (.ok s) data).2.2 = data ∧
    ∃ d, ((lendingHandler c σ).serveOne errText (.ok s) data).2.1 = some d ∧ P d ∧
      sent d = sent s ++ responseHead (utf8 "200 OK") [] ++ data := by
  obtain ⟨r, s1, g1, g2, g3, g4, _⟩ := brings_parsed hb
  have hi := serveOneInner_handled (lendingHandler c σ) errText data g1 g4
  rw [g2, g3] at hi
  have hh : handled (lendingHandler c σ) m target r.body data = (.ok (HttpResponse.new c .OK (.B ⟨[.data data]⟩)), r.body, data) := by
    rcases hm with rfl | rfl <;> rfl
  rw [hh] at hi
  have ht : trace (BufReader.new c (StreamEither.B (Wire.mk [.data data]) : Boxed Wire)) = data.map .byte := by
    rw [BufReader.trace_new]
    show List.flatMap WireEv.events [.data data] = _
    simp [WireEv.events]
  obtain ⟨w1, d, w2, w3, w4⟩ := serve_succeeds hra hrel hkept (lendingHandler c σ)
    ⟨fun _ _ _ => ⟨[], rfl⟩, fun _ _ _ => ⟨[], rfl⟩⟩ errText s data hs (HttpResponse.new c .OK (.B ⟨[.data data]⟩))
    (.inl (by rw [hi]; rfl)) rfl data [] (by rw [show trace (HttpResponse.new c .OK _).body = _ from ht]; exact delivers_map' c _)
    (by simp [Ended])
  refine ⟨w1, ?_, d, w2, w3, ?_⟩
  · rw [serveOne_state (lendingHandler c σ) (fun _ _ => rfl), hi]
  · rw [w4, show utf8 "200 OK" = HttpStatus.OK.display by decide +kernel]; rfl

end

section
variable {c : Cfg} {ρ : Type} [LawfulReader ρ] [ZeroReader ρ]

/-- A body that lasts until the connection is closed is what comes. -/
theorem trace_tilClose {x : HttpBody c ρ} {u : ρ} (hf : framing x = .tilClose) (hu : x.under = some u) : trace x = trace u := by
  cases x with
  | Chunked _ => simp [framing] at hf
  | Limited _ => simp [framing] at hf
  | ReadTilClose v => simp only [HttpBody.under, Option.some.injEq] at hu; subst hu; rfl

end

section
variable [CaseMap] {c c' : Cfg} {ω α ρ σ τ : Type} [LawfulReader ρ] [ZeroReader ρ] [LawfulWriter σ] [LawfulReader τ] [ZeroReader τ]
  [LawfulWriter τ]

/-- The crate's tests of `get`, for every URL, script entry and transport. `s` is the server's end of the connection, `d` the
client's: if the server gets what the client writes, it does as the script says, and nothing is left of the script; if the client
gets what the server sends, `client::get` returns the body of the script. -/
theorem C118_get_test {P : σ → Prop} (hr : Reliable c P) (N : StreamConnector ω α (Duplex ρ σ))
    (url : Url) (host : Bytes) (hs : AsciiText url.scheme) (hu : PlainHttp url ∨ SecureHttp url) (hhost : url.host = some host)
    (htext : IsText host ∧ ¬ HasCrLf host) (htarget : SendableTarget (requestTarget { url with query := none }))
    (w w1 w2 : ω) (a : α) (d : Duplex ρ σ)
    (ha : N.toStreamAddr url w = (.ok a, w1)) (hc : N.connect a w1 = (.ok d, w2)) (hP : P d.wr) (hd0 : sent d.wr = [])
    {Q : τ → Prop} (hra : ReadsApart τ) (hrel : Reliable c' Q) (hkept : ∀ s n, Q s → Q (read s n).2) (errText : Err → Bytes)
    (s : τ) (hQ : Q s) (hs0 : sent s = [])
    (hreq : trace s = (requestHead .Get (requestTarget { url with query := none }) (standardHeaders .Get host)).map .byte)
    (e : ExpectedRequest) (he1 : e.expectedMethod = .Get) (he2 : e.expectedUri = requestTarget { url with query := none })
    (hstatus : e.responseStatus.toCode = 200) (hh : SendableHeaders e.responseHeaders.entries)
    (hf : FramedBy e.responseHeaders.entries .tilClose) :
    ∃ s', (testHandler c' τ).serveOne errText (.ok s) [e] = (.ok (), some s', []) ∧
      (trace d.rd = (sent s').map .byte → ∃ x d', clientGet c N (some url) w = (.ok x, w2) ∧ Yields x e.responseBody ∧
        x.under = some (BufReader.new c d') ∧ trace s = (wire d'.wr).map .byte) := by
  obtain ⟨h, k1, k2, k3, _⟩ := standard_ok .Get host htext
  have hb : Brings c' s .Get e.expectedUri [] :=
    ⟨h, [], by rw [he2]; exact htarget, k2, k3, by rw [hreq, k1, he2]; exact delivers_map' c' _, by simp⟩
  obtain ⟨g1, g2, s', g3, _, g4⟩ := C118_met hra hrel hkept errText s hQ e [] .Get e.expectedUri [] (.inl rfl) hb
    ⟨he1, rfl, by simp⟩ ⟨hh.1, hh.2.1⟩
  refine ⟨s', Prod.ext g1 (Prod.ext g3 g2), fun hd => ?_⟩
  rw [g4, hs0, List.nil_append, scripted, if_pos he1, List.map_append] at hd
  have hl : LengthOk e.responseHeaders.entries := fun v hv => by
    cases hf with
    | tilClose _ h2 => exact absurd hv (h2 v)
  obtain ⟨x, d', c1, c2, c3, c4, c5⟩ := (C43_get hr N url host hs hu hhost w w1 w2 a d ha hc hP e.responseStatus e.responseHeaders
    (e.responseBody.map .byte) hh hl (by rw [hd]; exact delivers_map c _ _)).1 hstatus
  refine ⟨x, d', c1, yields_of_trace ?_, c3, by rw [c5, hreq, hd0]; rfl⟩
  rw [trace_tilClose (framedBy_unique hh.1 c2 hf) c3, BufReader.trace_new]
  exact c4

/-- The crate's tests of `put`, for every URL, body, script entry and transport: if the client is answered as the script says,
`client::put` returns the body of the script; a server that gets what the client has written gives that answer, and nothing is
left of the script. -/
theorem C118_put_test {β : Type} [LawfulReader β] {P : σ → Prop} (hr : Reliable c P) (N : StreamConnector ω α (Duplex ρ σ))
    (url : Url) (host : Bytes) (hs : AsciiText url.scheme) (hu : PlainHttp url ∨ SecureHttp url) (hhost : url.host = some host)
    (htext : IsText host ∧ ¬ HasCrLf host) (htarget : SendableTarget (requestTarget { url with query := none }))
    (e : ExpectedRequest) (he1 : e.expectedMethod = .Put) (he2 : e.expectedUri = requestTarget { url with query := none })
    (he3 : IsText e.expectedBody) (hstatus : e.responseStatus.toCode = 200)
    (hh : SortedNames e.responseHeaders.entries ∧ ∀ kv ∈ e.responseHeaders.entries, CaseMap.lower kv.1 = kv.1)
    (body : β) (t' : List Ev) (hbody : Delivers c (trace body) e.expectedBody t') (hend : Ended c t')
    (w w1 w2 : ω) (a : α) (d : Duplex ρ σ)
    (ha : N.toStreamAddr url w = (.ok a, w1)) (hc : N.connect a w1 = (.ok d, w2)) (hP : P d.wr) (hd0 : sent d.wr = [])
    (hd : trace d.rd = (scripted e).map .byte)
    {Q : τ → Prop} (hra : ReadsApart τ) (hrel : Reliable c' Q) (hkept : ∀ s n, Q s → Q (read s n).2) (errText : Err → Bytes) :
    ∃ x d', clientPut c N (some url) body w = (.ok x, w2) ∧ Yields x e.responseBody ∧ x.under = some (BufReader.new c d') ∧
      ∀ s : τ, Q s → sent s = [] → trace s = (wire d'.wr).map .byte →
        ∃ s', (testHandler c' τ).serveOne errText (.ok s) [e] = (.ok (), some s', []) ∧ sent s' = scripted e := by
  have hput : scripted e = responseHead e.responseStatus.display [] ++ e.responseBody := by
    rw [scripted, if_neg (by rw [he1]; simp)]
  have hnil : SendableHeaders (HttpHeaders.mk []).entries := ⟨by simp [SortedNames], by simp, by simp⟩
  have hf : FramedBy (HttpHeaders.mk []).entries .tilClose := .tilClose (by simp) (by simp)
  rw [hput, List.map_append] at hd
  obtain ⟨x, d', c1, c2, c3, c4, chs, c5, c6, c7⟩ := (C43_put hr N url host hs hu hhost body e.expectedBody t' hbody hend w w1 w2 a d
    ha hc hP e.responseStatus ⟨[]⟩ (e.responseBody.map .byte) hnil (fun v hv => by simp at hv)
    (by rw [hd]; exact delivers_map c _ _)).1 hstatus
  refine ⟨x, d', c1, yields_of_trace ?_, c3, fun s hQ hs0 hreq => ?_⟩
  · rw [trace_tilClose (framedBy_unique hnil.1 c2 hf) c3, BufReader.trace_new]
    exact c4
  · obtain ⟨h, k1, k2, k3, k4⟩ := standard_ok .Put host htext
    rw [hd0, List.nil_append, List.append_assoc] at c7
    have h0 : UnsignedText 16 (utf8 "0") 0 := by
      rw [show utf8 "0" = b!"0" by decide +kernel]
      exact ((fromStrRadix_iff (max := 10) (by omega) (by omega)).1 (by decide)).1
    have hb : Brings c' s .Put e.expectedUri e.expectedBody := by
      refine ⟨h, (chunkedBytes chs (utf8 "0") ++ [13, 10]).map .byte, by rw [he2]; exact htarget, k2, k3, ?_, fun _ =>
        ⟨([13, 10] : Bytes).map .byte, ?_⟩⟩
      · rw [hreq, c7, k1, he2, List.map_append]; exact delivers_map c' _ _
      · rw [List.map_append]
        exact .chunked chs (utf8 "0") (.chunked (k4 (by unfold Carries; simp))) c5 h0 (deliversChunked_map c' chs (utf8 "0") _) c6
    obtain ⟨g1, g2, s', g3, _, g4⟩ := C118_met hra hrel hkept errText s hQ e [] .Put e.expectedUri e.expectedBody (.inr rfl) hb
      ⟨he1, rfl, fun _ => ⟨rfl, he3⟩⟩ hh
    exact ⟨s', Prod.ext g1 (Prod.ext g3 g2), by rw [g4, hs0]; rfl⟩

end

/-! Witnesses. -/

/-- The request of `get_test` (`src/client.rs`), as an entry of a script. -/
def sampleEntry : ExpectedRequest :=
  { expectedMethod := .Get, expectedUri := b!"/a", expectedBody := [], responseStatus := .OK, responseBody := b!"hello",
    responseHeaders := ⟨[(b!"x", b!"y")]⟩ }

/-- A PUT with a body, as an entry of a script. -/
def sampleUpload : ExpectedRequest :=
  { expectedMethod := .Put, expectedUri := b!"/b", expectedBody := b!"new", responseStatus := .OK, responseBody := b!"thanks",
    responseHeaders := ⟨[]⟩ }

theorem sampleEntry_brought (c : Cfg) : let _ := asciiCase
    Brings c (requestConn (utf8 "GET /a HTTP/1.1\r\n\r\n")) .Get b!"/a" [] := by
  intro _
  refine ⟨⟨[]⟩, [], ⟨by simp, isText_ascii (by decide), by decide, by decide, by unfold HasCrLf; decide⟩,
    ⟨by simp [SortedNames], by simp, by simp⟩, fun v hv => by simp at hv, ?_, by simp⟩
  have : trace (requestConn (utf8 "GET /a HTTP/1.1\r\n\r\n")) = (requestHead .Get b!"/a" []).map .byte := by decide +kernel
  rw [this]; exact delivers_map' _ _

theorem sampleUpload_brought (c : Cfg) : let _ := asciiCase
    Brings c (requestConn (utf8 "PUT /b HTTP/1.1\r\ncontent-length: 3\r\n\r\nnew")) .Put b!"/b" b!"new" := by
  intro _
  have hlen : LengthText b!"3" 3 := lengthText_iff.1 (by decide +kernel)
  refine ⟨⟨[(b!"content-length", b!"3")]⟩, b!"new".map .byte,
    ⟨by simp, isText_ascii (by decide), by decide, by decide, by unfold HasCrLf; decide⟩,
    ⟨by unfold SortedNames; decide, by decide +kernel, fun kv hkv => by
      simp only [List.mem_cons, List.not_mem_nil, or_false] at hkv
      rcases hkv with rfl
      exact ⟨isText_ascii (by decide), by decide, by unfold HasCrLf; decide, by rw [← startsBlank_iff]; decide,
        isText_ascii (by decide), by unfold HasCrLf; decide⟩⟩,
    (fun v hv => by
      simp only [List.mem_cons, List.not_mem_nil, or_false, Prod.mk.injEq] at hv
      rw [hv.2]; exact ⟨3, hlen⟩), ?_,
    fun _ => ⟨[], .limited (.limited (v := b!"3") (by decide) (by simp) hlen) (by simp)⟩⟩
  have : trace (requestConn (utf8 "PUT /b HTTP/1.1\r\ncontent-length: 3\r\n\r\nnew")) =
      (requestHead .Put b!"/b" [(b!"content-length", b!"3")]).map .byte ++ b!"new".map .byte := by decide +kernel
  rw [this]; exact delivers_map _ _ _

/-- Witness for `C118_script` (and so for `C118_met`): a GET and a PUT. -/
example (c : Cfg) : let _ := asciiCase
    let run := [(requestConn (utf8 "GET /a HTTP/1.1\r\n\r\n"), sampleEntry),
      (requestConn (utf8 "PUT /b HTTP/1.1\r\ncontent-length: 3\r\n\r\nnew"), sampleUpload)]
    scripted sampleEntry = utf8 "HTTP/1.1 200 OK\r\nx: y\r\n\r\nhello" ∧
    ∃ P, ReadsApart (Duplex Wire Sink) ∧ Reliable c P ∧ (∀ s n, P s → P (read s n).2) ∧ ∀ p ∈ run, Awaited c P p.1 p.2 := by
  intro _ run
  refine ⟨by decide +kernel, _, duplex_readsApart, duplex_reliable (sink_reliable c), fun _ _ h => h, fun p hp => ?_⟩
  simp only [run, List.mem_cons, List.not_mem_nil, or_false] at hp
  rcases hp with rfl | rfl
  · exact ⟨by simp [requestConn], .inl rfl, sampleEntry_brought c, isText_ascii (by decide),
      by unfold SortedNames sampleEntry; decide, by decide +kernel⟩
  · exact ⟨by simp [requestConn], .inr rfl, sampleUpload_brought c, isText_ascii (by decide),
      by unfold SortedNames sampleUpload; decide, by simp [sampleUpload]⟩

/-- A network where every connection brings this. -/
def bringing (bs : Bytes) : StreamConnector Unit Unit (Duplex Wire Sink) where
  toStreamAddr _ w := (.ok (), w)
  connect _ w := (.ok (requestConn bs), w)

/-- Witness for `C118_get_test`. -/
example (c c' : Cfg) : let _ := asciiCase
    ∃ x, clientGet c (bringing (scripted sampleEntry)) (some { sampleUrl with path := b!"/a" }) () = (.ok x, ()) ∧
      Yields x b!"hello" := by
  intro _
  have hentry : SendableHeaders sampleEntry.responseHeaders.entries := by
    refine ⟨by unfold SortedNames sampleEntry; decide, by decide +kernel, fun kv hkv => ?_⟩
    simp only [sampleEntry, List.mem_cons, List.not_mem_nil, or_false] at hkv
    rcases hkv with rfl
    exact ⟨isText_ascii (by decide), by decide, by unfold HasCrLf; decide, by rw [← startsBlank_iff]; decide,
      isText_ascii (by decide), by unfold HasCrLf; decide⟩
  obtain ⟨s', h1, h2⟩ := C118_get_test (c := c) (c' := c') (sink_reliable c) (bringing (scripted sampleEntry))
    { sampleUrl with path := b!"/a" } b!"h" (by rw [← isAscii_iff]; decide)
    (.inr (by unfold SecureHttp; rw [utf8_https]; exact sameText_refl _)) rfl
    ⟨isText_ascii (by decide), by unfold HasCrLf; decide⟩
    ⟨by decide, isText_ascii (by decide), by decide, by decide, by unfold HasCrLf; decide⟩ () () () ()
    (requestConn (scripted sampleEntry)) rfl rfl (by simp [requestConn]) rfl duplex_readsApart
    (duplex_reliable (sink_reliable c')) (fun _ _ h => h) (fun _ => [])
    (requestConn (requestHead .Get b!"/a" (standardHeaders .Get b!"h"))) (by simp [requestConn]) rfl (by decide +kernel)
    sampleEntry rfl rfl rfl hentry (.tilClose (by decide) (fun v hv => by simp [sampleEntry] at hv))
  have h3 : (testHandler c' (Duplex Wire Sink)).serveOne (fun _ => []) (.ok (requestConn (requestHead .Get b!"/a"
      (standardHeaders .Get b!"h")))) [sampleEntry] = (.ok (), some s', []) := h1
  have h4 : sent s' = scripted sampleEntry := by
    have : ((testHandler c' (Duplex Wire Sink)).serveOne (fun _ => []) (.ok (requestConn (requestHead .Get b!"/a"
      (standardHeaders .Get b!"h")))) [sampleEntry]).2.1.map sent = some (scripted sampleEntry) := by
      rcases c' with ⟨_ | _⟩ <;> decide +kernel
    rw [h3] at this
    simpa using this
  obtain ⟨x, _, g1, g2, _⟩ := h2 (by rw [h4]; decide +kernel)
  exact ⟨x, g1, g2⟩

/-- Witness for `C118_put_test`. -/
example (c : Cfg) : let _ := asciiCase
    ∃ x, clientPut c (bringing (scripted sampleUpload)) (some { sampleUrl with path := b!"/b" }) (SliceReader.mk b!"new") () =
      (.ok x, ()) ∧ Yields x b!"thanks" := by
  intro _
  obtain ⟨x, d', h1, h2, _⟩ := C118_put_test (c := c) (c' := c) (sink_reliable c) (bringing (scripted sampleUpload))
    { sampleUrl with path := b!"/b" } b!"h" (by rw [← isAscii_iff]; decide)
    (.inr (by unfold SecureHttp; rw [utf8_https]; exact sameText_refl _)) rfl
    ⟨isText_ascii (by decide), by unfold HasCrLf; decide⟩
    ⟨by decide, isText_ascii (by decide), by decide, by decide, by unfold HasCrLf; decide⟩ sampleUpload rfl rfl
    (isText_ascii (by decide)) rfl ⟨by unfold SortedNames sampleUpload; decide, by simp [sampleUpload]⟩ (SliceReader.mk b!"new") []
    (delivers_map' c b!"new") (by simp [Ended]) () () () ()
    (requestConn (scripted sampleUpload)) rfl rfl (by simp [requestConn]) rfl (by decide +kernel)
    (duplex_readsApart (ρ := Wire) (σ := Sink)) (duplex_reliable (sink_reliable c)) (fun _ _ h => h) (fun _ => [])
  exact ⟨x, h1, h2⟩

/-- Witness for `C118_unmet`: a request for another target, and one too many. -/
example : ¬ Met { sampleEntry with expectedUri := b!"/c" } .Get b!"/a" [] ∧ (∀ e, ([] : List ExpectedRequest).head? = some e → False) :=
  ⟨fun h => absurd h.2.1 (by decide), by simp⟩

/-- Witness for `C118_exact`: the run above follows its script, and no longer does if an entry is added. -/
example (c : Cfg) : let _ := asciiCase
    let run := [(requestConn (utf8 "GET /a HTTP/1.1\r\n\r\n"), HttpMethod.Get, b!"/a", []),
      (requestConn (utf8 "PUT /b HTTP/1.1\r\ncontent-length: 3\r\n\r\nnew"), HttpMethod.Put, b!"/b", b!"new")]
    (∃ P, ReadsApart (Duplex Wire Sink) ∧ Reliable c P ∧ (∀ s n, P s → P (read s n).2) ∧
      ∀ p ∈ run, P p.1 ∧ Brings c p.1 p.2.1 p.2.2.1 p.2.2.2) ∧
    Follows (run.map Prod.snd) [sampleEntry, sampleUpload] ∧
    ¬ Follows (run.map Prod.snd) [sampleEntry, sampleUpload, sampleEntry] := by
  intro _ run
  refine ⟨⟨_, duplex_readsApart, duplex_reliable (sink_reliable c), fun _ _ h => h, fun p hp => ?_⟩, ?_, fun h => ?_⟩
  · simp only [run, List.mem_cons, List.not_mem_nil, or_false] at hp
    rcases hp with rfl | rfl
    · exact ⟨by simp [requestConn], sampleEntry_brought c⟩
    · exact ⟨by simp [requestConn], sampleUpload_brought c⟩
  · exact .met (.inl rfl) ⟨rfl, rfl, by simp⟩ (.met (.inr rfl) ⟨rfl, rfl, fun _ => ⟨rfl, isText_ascii (by decide)⟩⟩ .nil)
  · cases h with
    | met _ _ h =>
      cases h with
      | met _ _ h => cases h
      | other h _ => exact h.2 rfl
    | other h _ => exact h.1 rfl

/-- Witness for `C118_other`: a DELETE is refused although the script expects a DELETE. -/
example (c : Cfg) : let _ := asciiCase
    let out := (testHandler c (Duplex Wire Sink)).serveOne (fun _ => []) (.ok (requestConn (utf8 "DELETE /a HTTP/1.1\r\n\r\n")))
      [{ sampleEntry with expectedMethod := .Delete }]
    out.2.1.map sent = some (utf8 "HTTP/1.1 405 Method Not Allowed\r\n\r\nDELETE not allowed") ∧ out.2.2.length = 1 := by
  intro _ out
  constructor <;> rcases c with ⟨_ | _⟩ <;> decide +kernel

end HttpIo
