import Verif.Spec.Close
import Verif.Props.Server
import Verif.Spec.EndToEnd
import Verif.Props.Connect

/-! C146, C147: connections that are closed after a message. -/

namespace HttpIo
open Spec

/-! ### C146 -/

section
variable [CaseMap] {c : Cfg} {η σ ρ ε : Type} [LawfulReader σ] [ZeroReader σ] [LawfulReader ρ] [ZeroReader ρ] [LawfulWriter σ]

/-- Full statement: the server, which closes the connection after its answer, says so in it. What holds: it does exactly if the
handler's response does; the server adds nothing, and its own answers say nothing. Missing: `C146_announced_false`. -/
theorem C146_announced_partial (hra : ReadsApart σ) (h : Handler c η σ ρ ε) (ho : OnlyReads h) (errText : Err → Bytes) (s d : σ)
    (self : η) (hv : ∀ r, (h.serveOneInner errText s self).1 = .ok r ∨ (h.serveOneInner errText s self).1 = .err r →
      r.version.major < 10 ∧ r.version.minor < 10)
    (hok : (h.serveOne errText (.ok s) self).1 = .ok ()) (hd : (h.serveOne errText (.ok s) self).2.1 = some d) :
    ∃ major minor status headers bs, sent d = sent s ++ versionedHead major minor status headers ++ bs ∧
      (SaysClose headers ↔ ∃ req s1 r, HttpRequest.deserialize c (BufReader.new c s) = (.ok req, s1) ∧ Acceptable req ∧
        AnswerIs h (handled h req.method req.uri req.body self).1 r ∧ SaysClose r.headers.entries) := by
  obtain ⟨d', hd', hw⟩ := C52_written h errText s self
  rw [hd, Option.some.injEq] at hd'
  subst hd'
  rcases hw with ⟨hp, _, _⟩ | ⟨r, hr, hw⟩
  · rw [hp] at hok; simp at hok
  · obtain ⟨hv1, hv2⟩ := hv r hr
    rcases hw hv1 hv2 with ⟨_, bs, t', _, _, hs⟩ | ⟨e, he, _⟩
    · rw [C52_handler_quiet hra h ho] at hs
      refine ⟨_, _, _, _, bs, hs, ?_⟩
      have never : ¬ SaysClose [] := by rintro ⟨v, _, _, _, hm, _⟩; simp at hm
      rcases inner_cases h errText s self with ⟨e, s1, hp⟩ | ⟨s1, hp⟩ | ⟨q, s1, hp, ha⟩ | ⟨q, s1, hp, ha⟩
      · rw [serveOneInner_err _ errText _ hp] at hr
        simp only [reduceCtorEq, Reply.err.injEq, false_or] at hr
        have he : r.headers.entries = [] := by
          rw [← hr]; unfold ServerResponse.ofError; split <;> rfl
        rw [he]
        refine iff_of_false never ?_
        rintro ⟨_, _, _, hp', _⟩
        rw [hp] at hp'; simp at hp'
      · rw [serveOneInner_panic _ errText _ hp] at hr
        simp at hr
      · rw [serveOneInner_handled _ errText _ hp ha] at hr
        have hans : ∀ r', AnswerIs h (handled h q.method q.uri q.body self).1 r' ↔ r' = r := by
          intro r'
          unfold AnswerIs
          rcases hh : (handled h q.method q.uri q.body self).1 with x | x | _ <;> rw [hh] at hr <;>
            simp [Reply.mapErr] at hr ⊢
          · rw [hr]; exact eq_comm
          · rw [hr]
        constructor
        · exact fun hc => ⟨q, s1, r, hp, ha, (hans r).2 rfl, hc⟩
        · rintro ⟨q', s1', r', hp', _, hr', hc⟩
          rw [hp] at hp'
          simp only [Prod.mk.injEq, Res.ok.injEq] at hp'
          obtain ⟨rfl, rfl⟩ := hp'
          rw [(hans r').1 hr'] at hc
          exact hc
      · rw [serveOneInner_refused _ errText _ hp ha] at hr
        simp only [reduceCtorEq, Reply.err.injEq, false_or] at hr
        have he : r.headers.entries = [] := by rw [← hr]; rfl
        rw [he]
        refine iff_of_false never ?_
        rintro ⟨q', _, _, hp', ha', _⟩
        rw [hp] at hp'
        simp only [Prod.mk.injEq, Res.ok.injEq] at hp'
        obtain ⟨rfl, rfl⟩ := hp'
        exact ha ha'
    · rw [he] at hok; simp at hok

end

theorem SameText_length {a b : Bytes} (h : SameText a b) : a.length = b.length := by
  induction h with
  | nil => rfl
  | cons _ _ ih => simp [ih]

theorem saysClose_long {headers : List (Bytes × Bytes)} (h : SaysClose headers) (major minor : Nat) (status : Bytes) :
    32 ≤ (versionedHead major minor status headers).length := by
  obtain ⟨v, pre, w, post, hm, rfl, hw, _⟩ := h
  obtain ⟨xs, ys, rfl⟩ := List.append_of_mem hm
  have h1 := SameText_length hw
  have h2 : (utf8 "close").length = 5 := by decide +kernel
  have h3 : (utf8 "connection").length = 10 := by decide +kernel
  have h4 : (utf8 "HTTP/").length = 5 := by decide +kernel
  unfold versionedHead headerText
  simp only [List.length_append, List.flatMap_append, List.flatMap_cons, List.length_cons, List.length_nil, h1, h2, h3, h4]
  omega

/-- The sample handler's answer, after which the server closes the connection, does not say so. -/
theorem C146_announced_false : let _ := asciiCase
    ¬ ∀ (c : Cfg) (h : Handler c Nat (Duplex Wire Sink) Wire Bytes) (errText : Err → Bytes) (s d : Duplex Wire Sink) (self : Nat),
      OnlyReads h → (h.serveOne errText (.ok s) self).1 = .ok () → (h.serveOne errText (.ok s) self).2.1 = some d →
      ∃ major minor status headers bs, sent d = sent s ++ versionedHead major minor status headers ++ bs ∧ SaysClose headers := by
  intro _ hall
  obtain ⟨major, minor, status, _, _, h1, h2⟩ := hall ⟨true⟩ (sampleHandler ⟨true⟩) (fun _ => []) ⟨⟨[.data b!"GET / HTTP/1.1\r\n\r\n"]⟩, ⟨[], 0, []⟩⟩
    ⟨⟨[]⟩, ⟨b!"HTTP/1.1 200 OK\r\n\r\nhello", 0, []⟩⟩ 0 (sampleHandler_onlyReads _) (by decide +kernel) (by decide +kernel)
  have h3 := saysClose_long h2 major minor status
  have h4 := congrArg List.length h1
  rw [List.length_append, List.length_append] at h4
  have h5 : (sent (⟨⟨[]⟩, ⟨b!"HTTP/1.1 200 OK\r\n\r\nhello", 0, []⟩⟩ : Duplex Wire Sink)).length = 24 := by decide +kernel
  rw [h5] at h4
  omega

/-- A handler that says so. -/
def closingHandler (c : Cfg) : Handler c Nat (Duplex Wire Sink) Wire Bytes :=
  { sampleHandler c with
    get := fun _ n => (.ok { HttpResponse.new c .OK (.B ⟨[.data b!"hi"]⟩) with headers := ⟨[(b!"connection", b!"x, Close")]⟩ }, n) }

/-- Witness for `C146_announced_partial`: one that does and one that does not. -/
example : let _ := asciiCase
    let s : Duplex Wire Sink := ⟨⟨[.data b!"GET / HTTP/1.1\r\n\r\n"]⟩, ⟨[], 0, []⟩⟩
    ((closingHandler ⟨true⟩).serveOne (fun _ => []) (.ok s) 0).1 = .ok () ∧
    ((closingHandler ⟨true⟩).serveOne (fun _ => []) (.ok s) 0).2.1.map sent = some b!"HTTP/1.1 200 OK\r\nconnection: x, Close\r\n\r\nhi" ∧
    SaysClose [(b!"connection", b!"x, Close")] ∧ ¬ SaysClose [(b!"connection", b!"keep-alive")] := by
  intro _ s
  have e1 : utf8 "connection" = b!"connection" := by decide +kernel
  have e2 : utf8 "close" = b!"close" := by decide +kernel
  refine ⟨by decide +kernel, by decide +kernel, ⟨_, b!"x, ", b!"Close", [], by rw [e1]; exact List.mem_singleton.2 rfl, rfl, ?_, ?_, .inl rfl⟩, ?_⟩
  · rw [e2]
    exact .cons (by unfold SameLetter; decide) (sameText_refl _)
  · exact .inr (.inr (.inl rfl))
  · rintro ⟨v, pre, w, post, hm, rfl, hw, hb, _⟩
    have hv : pre ++ w ++ post = b!"keep-alive" := (Prod.mk.injEq .. ▸ List.mem_singleton.1 hm).2
    rw [e2] at hw
    cases hw with
    | cons hl _ =>
      rename_i x w _
      have : ∀ x ∈ b!"keep-alive", ¬ SameLetter x 99 := by unfold SameLetter; decide
      exact this x (by rw [← hv]; simp) hl

/-! ### C147 -/

section
variable [CaseMap] {c : Cfg} {ω α σ : Type} [DecidableEq α] [LawfulReader σ] [ZeroReader σ] [LawfulWriter σ]

/-- Full statement: a connection that the server said it would close is not used again. What holds: after whatever exchanges, with
whatever answers, a request opens a connection exactly if none was opened for its address before. Missing: what the answers said,
see `C147_respected_false`. -/
theorem C147_regardless_partial {β : Type} (N : StreamConnector ω α σ) (xs : List (Exchange c σ β)) (w : ω) (q : Ask) (hq : q.Proper)
    (a : α) (hr : ∀ w, ∃ w1, N.toStreamAddr q.url w = (.ok a, w1)) :
    let before := history (logged N) xs HttpClient.new (w, [])
    (exchange (c := c) (logged N) q.exchange before.2.1 before.2.2).2.2.2 ≠ before.2.2.2 ↔ (a, true) ∉ before.2.2.2 := by
  intro before
  obtain ⟨host, hhost⟩ := hq.host
  obtain ⟨w1, hw1⟩ := hr before.2.2.1
  have hone := (C44_one_connection N xs w).2 a
  by_cases hin : (a, true) ∈ before.2.2.2
  · obtain ⟨s, hs⟩ := Option.isSome_iff_exists.1 (hone.2 hin)
    obtain ⟨b, hb⟩ := (C40_builder c q.url (if q.put then .Put else .Get) hq.ascii).1.2 ⟨hq.scheme, ⟨host, hhost⟩⟩
    have := (C44_reuse (logged N) (q.exchange (c := c)) before.2.1 before.2.2 (w1, before.2.2.2) q.url b rfl hb a s (logged_addr_eq hw1)
      (w1, before.2.2.2) (.inl ⟨hs, rfl⟩)).1
    rw [this]
    simp [hin]
  · have hs : poolGet a before.2.1.streams = none := by
      rw [← Option.not_isSome_iff_eq_none]
      exact fun h => hin (hone.1 h)
    obtain ⟨ok, h1, _⟩ := C48_connect_partial N (q.exchange (c := c)) before.2.1 before.2.2 q.url rfl hq.ascii hq.scheme
      (by rw [hhost]; simp) a w1 hw1 hs
    rw [h1]
    simp [hin]

end

/-- A server that says that it closes the connection, and does: after its answer there is nothing to read. -/
def closingConnector : StreamConnector Unit Unit (Duplex Wire Sink) :=
  ⟨fun _ w => (.ok ⟨⟨[.data b!"HTTP/1.1 200 OK\r\nconnection: close\r\ncontent-length: 2\r\n\r\nhi"]⟩, ⟨[], 0, []⟩⟩, w), fun _ w => (.ok (), w)⟩

/-- The first answer says that the connection is closed; the second request is sent over it all the same, and fails, although a new
connection would have brought the answer. -/
theorem C147_respected_false : let _ := asciiCase
    ¬ ∀ (c : Cfg) (N : StreamConnector Unit Unit (Duplex Wire Sink)) (q : Ask) (st : HttpStatus) (hd : HttpHeaders)
        (rs : List (Except Err Bytes)), q.Proper → (∀ w, N.toStreamAddr q.url w = (.ok (), w)) →
      (history (c := c) (logged N) [q.exchange] .new ((), [])).1 = [.ok (.got st hd rs)] → SaysClose hd.entries →
      (history (c := c) (logged N) [q.exchange, q.exchange] .new ((), [])).2.2.2.length = 2 := by
  intro _ hall
  have e1 : utf8 "connection" = b!"connection" := by decide +kernel
  have := hall ⟨true⟩ closingConnector (sampleAsk [10, 10]) .OK ⟨[(b!"connection", b!"close"), (b!"content-length", b!"2")]⟩
    [.ok b!"hi", .ok []] (sampleAsk_proper _) (fun _ => rfl) (by decide +kernel)
    ⟨b!"close", [], b!"close", [], by rw [e1]; simp, rfl, by rw [show utf8 "close" = b!"close" by decide +kernel]; exact sameText_refl _,
      .inl rfl, .inl rfl⟩
  exact absurd this (by decide +kernel)

/-- What becomes of the second request. -/
example : let _ := asciiCase
    let run := history (c := ⟨true⟩) (logged closingConnector) [(sampleAsk [10, 10]).exchange, (sampleAsk [10, 10]).exchange] .new ((), [])
    run.1 = [.ok (.got .OK ⟨[(b!"connection", b!"close"), (b!"content-length", b!"2")]⟩ [.ok b!"hi", .ok []]), .ok (.failed .unexpectedEof)] ∧
    run.2.2.2 = [((), true)] := by
  intro _ run
  exact ⟨by decide +kernel, by decide +kernel⟩

/-- Witness for `C147_regardless_partial`. -/
example (c : Cfg) (xs : List (Exchange c (Duplex Wire Sink) Outcome)) : let _ := asciiCase
    let before := history (logged closingConnector) xs HttpClient.new ((), [])
    (exchange (c := c) (logged closingConnector) (sampleAsk [10]).exchange before.2.1 before.2.2).2.2.2 ≠ before.2.2.2 ↔
      ((), true) ∉ before.2.2.2 := by
  intro _
  exact C147_regardless_partial closingConnector xs () (sampleAsk [10]) (sampleAsk_proper _) () fun w => ⟨w, rfl⟩

end HttpIo
