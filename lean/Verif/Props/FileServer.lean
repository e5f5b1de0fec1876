import Verif.Spec.FileServer
import Verif.Props.Total
import Verif.Props.Faults
import Verif.Props.Blame
import Verif.Props.Cut
import Verif.Props.Listing
import Verif.Props.Framing

/-! C186: what the file server does with any bytes whatsoever. -/

namespace HttpIo
open Spec

/-! ### Where the target leads -/

theorem way_resolve {fs : Fs} {root target : Bytes} {R : List Bytes} (hR : RootAt fs root R) {w : Except Err (List Bytes)}
    (h : Way fs R target w) : fs.resolve (joinPath root (trimSlashes target)) = w := by
  cases h with
  | nul h0 =>
    obtain ⟨cs, ht⟩ := target_total target
    rw [resolve_join hR ht, if_pos h0]
  | blocked h0 ht hb => rw [resolve_join hR ht, if_neg h0, walk_notDir.2 hb]; rfl
  | tangled h0 ht hb => rw [resolve_join hR ht, if_neg h0, walk_tangled.2 hb]; rfl
  | @nowhere cs h0 ht h1 h2 h3 =>
    rw [resolve_join hR ht, if_neg h0]
    cases hw : fs.walk R cs with
    | ok p => exact absurd (walk_iff.1 hw) (h3 p)
    | error e =>
      rcases walk_error hw with ⟨g, _⟩ | ⟨g, _⟩ | ⟨_, _, rfl⟩
      · exact absurd g h1
      · exact absurd g h2
      · rfl
  | there h0 ht hl => rw [resolve_join hR ht, if_neg h0, walk_iff.2 hl]

theorem way_total (fs : Fs) (R : List Bytes) (target : Bytes) : ∃ w, Way fs R target w := by
  by_cases h0 : (0 : UInt8) ∈ target
  · exact ⟨_, .nul h0⟩
  obtain ⟨cs, ht⟩ := target_total target
  by_cases h1 : Blocked fs R cs
  · exact ⟨_, .blocked h0 ht h1⟩
  by_cases h2 : Tangled fs R cs
  · exact ⟨_, .tangled h0 ht h2⟩
  by_cases h3 : ∃ p, Leads fs R cs p
  · obtain ⟨p, hp⟩ := h3; exact ⟨_, .there h0 ht hp⟩
  · exact ⟨_, .nowhere h0 ht h1 h2 fun p hp => h3 ⟨p, hp⟩⟩

theorem way_error {fs : Fs} {target : Bytes} {R : List Bytes} {e : Err} (h : Way fs R target (.error e)) : e ≠ .lengthRequired := by
  cases h <;> simp

theorem dechunks_error {c : Cfg} {stop : Option Err} (hf : Final c stop) (hl : stop ≠ some .lengthRequired) {x d : Bytes} {e : Err}
    (h : Dechunks c stop x d (some e)) : ¬ Retried c e ∧ e ≠ .lengthRequired := by
  generalize hr : some e = r at h
  induction h with
  | last => simp at hr
  | chunk _ _ ih => exact ih hr
  | _ =>
    simp only [Option.some.injEq] at hr
    subst hr
    cases stop with
    | none => rcases c with ⟨_ | _⟩ <;> refine ⟨?_, ?_⟩ <;> simp [cutError, sizeError, lineError, Retried]
    | some e =>
      have h1 := hf e rfl
      have h2 : e ≠ .lengthRequired := fun h => hl (by rw [h])
      rcases c with ⟨_ | _⟩ <;> refine ⟨?_, ?_⟩ <;> simp_all [cutError, sizeError, lineError, Retried]

/-! ### The request -/

theorem unsignedText_same {v : Bytes} {k n : Nat} (h : UnsignedText 10 v k) (h' : UnsignedText 10 v n) : k = n := by
  have h1 := (fromStrRadix_iff (max := k + n) (by omega) (by omega)).2 ⟨h, by omega⟩
  have h2 := (fromStrRadix_iff (max := k + n) (by omega) (by omega)).2 ⟨h', by omega⟩
  rw [h1] at h2; simpa using h2

section
variable [CaseMap] {c : Cfg} {σ : Type} [LawfulReader σ] [ZeroReader σ]

theorem delivers_left {stop : Option Err} {input bs : Bytes} {t' : List Ev} (h : Delivers c (input.map .byte ++ endEvents stop) bs t') :
    ∃ rest : Bytes, t' = rest.map .byte ++ endEvents stop := by
  generalize hx : input.map Ev.byte ++ endEvents stop = t at h
  induction h generalizing input with
  | nil => exact ⟨input, hx.symm⟩
  | byte b _ ih =>
    cases input with
    | nil => cases stop <;> simp [endEvents] at hx
    | cons a input => simp only [List.map_cons, List.cons_append, List.cons.injEq] at hx; exact ih hx.2
  | retry _ h _ =>
    cases input with
    | nil =>
      cases stop with
      | none => simp [endEvents] at hx
      | some e =>
        simp only [endEvents, List.map_nil, List.nil_append, List.cons.injEq] at hx
        rw [← hx.2] at h; cases h
    | cons a input => simp at hx

omit [CaseMap] in
theorem limitTrace_stop (n : Nat) (rest : Bytes) (stop : Option Err) :
    limitTrace n (rest.map .byte ++ endEvents stop) =
      (rest.take n).map .byte ++ endEvents (if rest.length < n then stop else none) := by
  by_cases h : rest.length < n
  · rw [if_pos h, limitTrace_append _ _ _ (Nat.le_of_lt h), List.take_of_length_le (Nat.le_of_lt h)]
    obtain ⟨k, hk⟩ : ∃ k, n - rest.length = k + 1 := ⟨n - rest.length - 1, by omega⟩
    rw [hk]
    cases stop with
    | none => rw [endEvents, limitTrace_nil]
    | some e => rw [endEvents, limitTrace_fault, limitTrace_nil]
  · rw [if_neg h, limitTrace_more _ _ (by omega), endEvents, List.append_nil]

/-- The request that was read, and its body. -/
theorem requests_read {stop : Option Err} (hf : Final c stop) {input target rest : Bytes} {m : HttpMethod} {hist : List (Bytes × Bytes)}
    (h : Requests c stop input m target hist rest) (s : σ) (ht : trace s = input.map .byte ++ endEvents stop) :
    ∃ r s1, HttpRequest.deserialize c (BufReader.new c s) = (.ok r, s1) ∧ r.method = m ∧ r.uri = target ∧
      (NoLength hist ↔ framing r.body = .tilClose) ∧
      ∀ d e, Carried c stop hist rest d e → trace r.body = d.map .byte ++ endEvents e := by
  obtain ⟨line, major, minor, h1, h2⟩ := h
  obtain ⟨r, s1, f1, f2, f3, f4, _, f6⟩ := C69_request_complete c (BufReader.new c s) line m target ⟨major, minor⟩ hist _ h1
    (by rw [BufReader.trace_new, ht]; exact h2)
  have hfr := (C20_request c _ _ r f1).1
  have hsort := request_sorted f1
  have l1 : CaseMap.lower (utf8 "transfer-encoding") = utf8 "transfer-encoding" := by
    rw [CaseMap.lower_ascii _ (by decide +kernel)]; decide +kernel
  have l2 : CaseMap.lower (utf8 "content-length") = utf8 "content-length" := by
    rw [CaseMap.lower_ascii _ (by decide +kernel)]; decide +kernel
  have u1 : utf8 "transfer-encoding" = b!"transfer-encoding" := by decide +kernel
  have u2 : utf8 "content-length" = b!"content-length" := by decide +kernel
  have u3 : utf8 "chunked" = b!"chunked" := by decide +kernel
  have a1 := (f6 (utf8 "transfer-encoding")).1
  have a2 := (f6 (utf8 "content-length")).1
  unfold HttpHeaders.get at a1 a2
  rw [l1] at a1
  rw [l2] at a2
  have m1 : LastNamed "transfer-encoding" hist (utf8 "chunked") ↔ (b!"transfer-encoding", b!"chunked") ∈ r.headers.entries := by
    rw [← mapGet_iff hsort, ← u1, ← u3]; exact (a1 _).symm
  have m2 : ∀ v, LastNamed "content-length" hist v ↔ (b!"content-length", v) ∈ r.headers.entries := by
    intro v; rw [← mapGet_iff hsort, ← u2]; exact (a2 _).symm
  refine ⟨r, s1, f1, f3, f4, ⟨?_, ?_⟩, ?_⟩
  · rintro ⟨n1, n2⟩
    exact framedBy_unique hsort hfr (.tilClose (fun hx => n1 (m1.2 hx)) fun v hx => n2 v ((m2 v).2 hx))
  · intro hx
    rw [hx] at hfr
    cases hfr with
    | tilClose g1 g2 => exact ⟨fun hx => g1 (m1.1 hx), fun v hx => g2 v ((m2 v).1 hx)⟩
  · intro d e hc
    obtain ⟨_, enc, len, hb⟩ := request_under f1
    have hft := framed_trace (c := c) enc len s1
    rw [hb] at hfr
    rw [hb]
    cases hc with
    | chunked g1 g2 =>
      have := framedBy_unique hsort hfr (.chunked (m1.1 g1))
      rw [(hft.1 this).1, f2, dechunks_trace hf g2]
    | @limited v n g1 g2 g3 =>
      have hlt : LengthText v n := by
        obtain ⟨_, _, _, _, _, _, h6⟩ := h2
        obtain ⟨k, k1, k2⟩ := h6 v g2
        have := unsignedText_same k1 g3
        subst this
        exact ⟨k1, k2⟩
      have := framedBy_unique hsort hfr (.limited (fun hx => g1 (m1.2 hx)) ((m2 v).1 g2) hlt)
      rw [hft.2.1 n this, f2, limitTrace_stop]

end

/-! ### The answers -/

section
variable [CaseMap] {c : Cfg} {σ : Type} [LawfulReader σ] [ZeroReader σ] [LawfulWriter σ]

omit [CaseMap] in
theorem ofError_other {errText : Err → Bytes} {e : Err} (he : e ≠ .lengthRequired) :
    ServerResponse.ofError c (ρ := Wire) errText e = ServerResponse.fromString c .InternalServerError (errText e) := by
  unfold ServerResponse.ofError
  cases e <;> first | rfl | exact absurd rfl he

/-- A response made of a text is sent whole. -/
theorem text_sent {P : σ → Prop} (hra : ReadsApart σ) (hrel : Reliable c P) (hkept : ∀ s n, P s → P (read s n).2)
    {h : Handler c Fs σ Wire Err} (ho : OnlyReads h) (hre : ∀ b st, h.release b st = st)
    (errText : Err → Bytes) (s : σ) (fs fs' : Fs) (hs : P s) (st : HttpStatus) (text : Bytes) (shown : Bytes)
    (hsh : st.display = shown)
    (hi : (h.serveOneInner errText s fs).1 = .ok (ServerResponse.fromString c st text) ∨
      (h.serveOneInner errText s fs).1 = .err (ServerResponse.fromString c st text))
    (hst : (h.serveOneInner errText s fs).2.2 = fs') :
    ∃ d, h.serveOne errText (.ok s) fs = (.ok (), some d, fs') ∧
      sent d = sent s ++ (responseHead shown [] ++ text) := by
  obtain ⟨h1, h2, h3, t', h4, h5⟩ := fromString_body (c := c) (ρ := Wire) st text
  obtain ⟨g1, d, g2, _, g3⟩ := serve_succeeds hra hrel hkept _ ho errText s fs hs _ hi h1 _ t' h4 h5
  rw [h2, h3, hsh] at g3
  exact ⟨d, Prod.ext g1 (Prod.ext g2 (by rw [within_state hre, hst])), by rw [g3, List.append_assoc]⟩

omit [CaseMap] [LawfulWriter σ] in
/-- The handler's `put`, when the body fails. -/
theorem put_breaks {fs : Fs} {root target : Bytes} {p : List Bytes}
    (hres : fs.resolve (joinPath root (trimSlashes target)) = .ok p) (hp : Storable fs p) (body : HttpBody c (BufReader c σ)) (bs : Bytes)
    (e : Err) (hb : trace body = bs.map .byte ++ [.fault e]) (he : ¬ Retried c e) :
    ∃ b, FileHandler.put root target body fs = (.err e, b, fun q => if q = p then some (.file bs) else fs q) := by
  unfold FileHandler.put FileHandler.putOn
  rw [create_storable hres hp]
  dsimp only
  obtain ⟨b, f, h1, h2, _⟩ := copy_fails (sink_reliable c) (r := body) (s := Sink.mk [] 0 []) (n := 0) (by simp)
    (bs := bs) (t' := [.fault e]) (t'' := []) (e := e) (by rw [hb]; exact delivers_map c bs _) ⟨he, [], rfl, by simp [Ended]⟩
  rw [h1]
  refine ⟨b, ?_⟩
  dsimp only
  rw [Fs.set_set, show sent f = bs by rw [h2]; rfl]
  rfl

omit [CaseMap] [LawfulWriter σ] in
/-- The handler's `put`, when the body ends. -/
theorem put_keeps {fs : Fs} {root target : Bytes} {p : List Bytes}
    (hres : fs.resolve (joinPath root (trimSlashes target)) = .ok p) (hp : Storable fs p) (body : HttpBody c (BufReader c σ)) (bs : Bytes)
    (hb : trace body = bs.map .byte) :
    ∃ b, FileHandler.put root target body fs =
      (.ok (HttpResponse.new c .OK (.B ⟨[]⟩)), b, fun q => if q = p then some (.file bs) else fs q) := by
  unfold FileHandler.put FileHandler.putOn
  rw [create_storable hres hp]
  dsimp only
  obtain ⟨k, b, f, h1, _⟩ := (sink_reliable c).copy_ok (r := body) (s := Sink.mk [] 0 []) (n := 0) (by simp)
    (bs := bs) (t' := []) (by rw [hb]; simpa using delivers_map c bs []) (by simp [Ended])
  rw [h1]
  obtain ⟨bs', t', h2, h3, h4, _⟩ := C33_copy_ok c _ _ _ _ _ _ h1
  have : bs' = bs := Delivers.ended_unique h2 h3 (by rw [hb]; simpa using delivers_map c bs []) (by simp [Ended])
  subst this
  refine ⟨b, ?_⟩
  dsimp only
  rw [Fs.set_set, show (sent f) = bs' from h4]
  rfl

/-- `C186_malformed`, of any handler. -/
theorem malformed_common {P : σ → Prop} (hra : ReadsApart σ) (hrel : Reliable c P) (hkept : ∀ s n, P s → P (read s n).2)
    (h : Handler c Fs σ Wire Err) (ho : OnlyReads h) (fs : Fs) (errText : Err → Bytes) (s : σ) (hs : P s) (stop : Option Err)
    (hlr : stop ≠ some .lengthRequired) (input : Bytes) (ht : trace s = input.map .byte ++ endEvents stop)
    (e : Err) (hx : RequestFault c (input.map .byte ++ endEvents stop) e) :
    (∃ d, h.serveOne errText (.ok s) fs = (.ok (), some d, fs) ∧
      sent d = sent s ++ (responseHead (utf8 "500 Internal Server Error") [] ++ errText e)) ∧
    (stop = some e ∨ e = .parse ∨ e = .parseInt ∨ e = .utf8 ∨ e = .unexpectedEof) := by
  have hp := (C188_request c (BufReader.new c s) e).2 (by rw [BufReader.trace_new, ht]; exact hx)
  have hno : ∀ e', Ev.fault e' ∈ trace s → stop = some e' := by
    intro e' hx; rw [ht] at hx; cases stop <;> simp_all [endEvents]
  obtain ⟨g1, g2, d, g3, g4⟩ := C51_unparsable_partial hra hrel hkept h ho
    errText s fs hs e hp (fun e' hx he => hlr (by rw [hno e' hx, he]))
  refine ⟨⟨d, Prod.ext g1 (Prod.ext g3 g2), by rw [g4, List.append_assoc]⟩, ?_⟩
  have := request_faults (c := c) (s := BufReader.new c s) (e := e) hp
  rw [BufReader.trace_new] at this
  exact this.imp_left (hno e)

/-- Bytes that are no request are answered with 500 and the text of the error that their fault has, which is one of four or the failure
of the connection, and change nothing. -/
theorem C186_malformed {P : σ → Prop} (hra : ReadsApart σ) (hrel : Reliable c P) (hkept : ∀ s n, P s → P (read s n).2)
    (fs : Fs) (root : Bytes) (errText : Err → Bytes) (s : σ) (hs : P s) (stop : Option Err)
    (hlr : stop ≠ some .lengthRequired) (input : Bytes) (ht : trace s = input.map .byte ++ endEvents stop)
    (e : Err) (h : RequestFault c (input.map .byte ++ endEvents stop) e) :
    (∃ d, (fileHandler c σ root errText).serveOne errText (.ok s) fs = (.ok (), some d, fs) ∧
      sent d = sent s ++ (responseHead (utf8 "500 Internal Server Error") [] ++ errText e)) ∧
    (stop = some e ∨ e = .parse ∨ e = .parseInt ∨ e = .utf8 ∨ e = .unexpectedEof) :=
  malformed_common hra hrel hkept _ (fileHandler_onlyReads root errText) fs errText s hs stop hlr input ht e h

/-- The handler is a file server: it stores as that of the documentation does, and gives what cannot be opened as an error. -/
structure FilesLike (h : Handler c Fs σ Wire Err) (root : Bytes) (errText : Err → Bytes) : Prop where
  put : h.put = FileHandler.put root
  into : ∀ e, e ≠ .lengthRequired → h.into e = ServerResponse.fromString c .InternalServerError (errText e)
  other : ∀ m, m ≠ .Get → m ≠ .Put → handled h m = handled (Handler.defaults c Fs σ Wire Err h.into) m
  get : ∀ target fs e, fs.openFile (joinPath root (trimSlashes target)) = .error e → h.get target fs = (.err e, fs)
  release : ∀ b st, h.release b st = st
  reads : OnlyReads h

theorem fileHandler_like (root : Bytes) (errText : Err → Bytes) : FilesLike (fileHandler c σ root errText) root errText where
  put := rfl
  into e he := ofError_other he
  other m h1 h2 := by cases m <;> first | rfl | exact absurd rfl h1 | exact absurd rfl h2
  get target fs e ho := by
    show FileHandler.get c root target fs = _
    unfold FileHandler.get
    rw [ho]
  release _ _ := rfl
  reads := fileHandler_onlyReads root errText

/-- All answers but those to a GET of something that is there are those of any such server. -/
theorem answer_common {P : σ → Prop} (hra : ReadsApart σ) (hrel : Reliable c P) (hkept : ∀ s n, P s → P (read s n).2)
    {fs : Fs} {root : Bytes} {R : List Bytes} (hR : RootAt fs root R) (errText : Err → Bytes) {H : Handler c Fs σ Wire Err}
    (hH : FilesLike H root errText) (s : σ) (hs : P s)
    {stop : Option Err} (hf : Final c stop) (hlr : stop ≠ some .lengthRequired) (input : Bytes)
    (ht : trace s = input.map .byte ++ endEvents stop) {res : Res Unit} {out : Bytes} {fs' : Fs}
    (h : FileAnswers c errText fs R stop input res out fs') :
    (∃ d, H.serveOne errText (.ok s) fs = (res, some d, fs') ∧ sent d = sent s ++ out) ∨
    ∃ target hist rest p, Requests c stop input .Get target hist rest ∧ Way fs R target (.ok p) ∧ fs = fs' ∧
      ((∃ content, fs p = some (.file content) ∧ res = .ok () ∧ out = responseHead (utf8 "200 OK") [] ++ content) ∨
        fs p = some .dir ∧ res = .err (.io (.other 21)) ∧ out = responseHead (utf8 "200 OK") []) := by
  have e500 : HttpStatus.display .InternalServerError = utf8 "500 Internal Server Error" := by decide +kernel
  have e411 : HttpStatus.display .LengthRequired = utf8 "411 Length Required" := by decide +kernel
  have e200 : HttpStatus.display .OK = utf8 "200 OK" := by decide +kernel
  have text := fun fs' => text_sent (fs' := fs') hra hrel hkept hH.reads hH.release errText s fs
  -- what opening or making the file fails with is sent as a text
  have failed : ∀ (r : HttpRequest c (BufReader c σ)) (s1 : BufReader c σ) (e : Err) (b : HttpBody c (BufReader c σ)) (fs' : Fs),
      HttpRequest.deserialize c (BufReader.new c s) = (.ok r, s1) → Acceptable r → e ≠ .lengthRequired →
      handled H r.method r.uri r.body fs = (.err e, b, fs') →
      ∃ d, H.serveOne errText (.ok s) fs = (.ok (), some d, fs') ∧
        sent d = sent s ++ (responseHead (utf8 "500 Internal Server Error") [] ++ errText e) := by
    intro r s1 e b fs' hd ha he hh
    have hi := serveOneInner_handled H errText fs hd ha
    rw [hh] at hi
    exact text fs' hs _ _ _ e500 (.inr (by rw [hi, ← hH.into e he]; rfl))
      (by rw [hi])
  have getFails : ∀ {target hist rest} {e : Err}, Requests c stop input .Get target hist rest → e ≠ .lengthRequired →
      fs.openFile (joinPath root (trimSlashes target)) = .error e →
      ∃ d, H.serveOne errText (.ok s) fs = (.ok (), some d, fs) ∧
        sent d = sent s ++ (responseHead (utf8 "500 Internal Server Error") [] ++ errText e) := by
    intro target hist rest e hq he ho
    obtain ⟨r, s1, f1, f2, f3, f4, f5⟩ := requests_read hf hq s ht
    refine failed r s1 e r.body fs f1 (by intro h; rw [f2] at h; simp at h) he ?_
    rw [f2, f3]
    show ((H.get target fs).1, r.body, (H.get target fs).2) = _
    rw [hH.get target fs e ho]
  have putFails : ∀ {target hist rest} {e : Err}, Requests c stop input .Put target hist rest → ¬ NoLength hist → e ≠ .lengthRequired →
      fs.create (joinPath root (trimSlashes target)) = .error e →
      ∃ d, H.serveOne errText (.ok s) fs = (.ok (), some d, fs) ∧
        sent d = sent s ++ (responseHead (utf8 "500 Internal Server Error") [] ++ errText e) := by
    intro target hist rest e hq hn he ho
    obtain ⟨r, s1, f1, f2, f3, f4, f5⟩ := requests_read hf hq s ht
    refine failed r s1 e r.body fs f1 (fun _ hx => hn (f4.2 hx)) he ?_
    rw [f2, f3]
    show H.put target r.body fs = _
    rw [hH.put]
    unfold FileHandler.put FileHandler.putOn
    rw [ho]
  cases h with
  | malformed hx => exact .inl (malformed_common hra hrel hkept H hH.reads fs errText s hs stop hlr input ht _ hx).1
  | cut hc =>
    left
    have hp := (C11_request_panics_iff c (BufReader.new c s)).2 (by rw [BufReader.trace_new, ht]; exact hc)
    rcases hd : HttpRequest.deserialize c (BufReader.new c s) with ⟨x, s1⟩
    rw [hd] at hp
    dsimp only at hp
    subst hp
    have hq := C52_handler_quiet hra H hH.reads errText s fs
    have hi := serveOneInner_panic H errText fs hd
    rw [hi] at hq
    refine ⟨s1.inner, ?_, by rw [List.append_nil]; exact hq⟩
    unfold Handler.serveOne
    dsimp only
    rw [hi]
  | @noLength m target hist rest hq hm hn =>
    left
    obtain ⟨r, s1, f1, f2, f3, f4, f5⟩ := requests_read hf hq s ht
    have hi := serveOneInner_refused H errText fs f1 (fun ha => ha (by rw [f2]; exact hm) (f4.1 hn))
    rw [show utf8 "length required" = b!"length required" by decide +kernel]
    exact text fs hs _ _ _ e411 (.inr (by rw [hi])) (by rw [hi])
  | @refused m target hist rest hq h1 h2 h3 =>
    left
    obtain ⟨r, s1, f1, f2, f3, f4, f5⟩ := requests_read hf hq s ht
    have ha : Acceptable r := by
      intro hx hy
      rw [f2] at hx
      rcases hx with hx | hx
      · exact h2 hx
      · exact h3 hx (f4.2 hy)
    have hi := serveOneInner_handled H errText fs f1 ha
    have hdef : handled H r.method =
        handled (Handler.defaults c Fs σ Wire Err H.into) r.method := by
      rw [f2]
      exact hH.other m h1 h2
    obtain ⟨a, k1, k2, _, k3, k4, k5⟩ := C53_default (c := c) (η := Fs) (σ := σ) (ρ := Wire) H.into r.method
      r.uri r.body fs
    rw [hdef, k1] at hi
    obtain ⟨g1, d, g2, _, g3⟩ := serve_succeeds hra hrel hkept _ hH.reads errText s fs hs a
      (.inl (by rw [hi]; rfl)) k3 _ [] (by rw [trace_of_yields k5]; simpa using delivers_map c _ []) (by simp [Ended])
    refine ⟨d, Prod.ext g1 (Prod.ext g2 (by rw [within_state hH.release, hi])), ?_⟩
    rw [g3, k2, k4, f2, List.append_assoc]
  | @file target hist rest p content hq hw hp => exact .inr ⟨_, _, _, _, hq, hw, rfl, .inl ⟨_, hp, rfl, rfl⟩⟩
  | @directory target hist rest p hq hw hp => exact .inr ⟨_, _, _, _, hq, hw, rfl, .inr ⟨hp, rfl, rfl⟩⟩
  | @noFile target hist rest p hq hw hp =>
    left
    refine getFails hq (by simp) ?_
    unfold Fs.openFile
    rw [way_resolve hR hw]; dsimp only; rw [hp]; rfl
  | @noWay target hist rest e hq hw =>
    left
    refine getFails hq (way_error hw) ?_
    unfold Fs.openFile
    rw [way_resolve hR hw]
  | @noPut target hist rest e hq hn hw =>
    left
    refine putFails hq hn (way_error hw) ?_
    unfold Fs.create
    rw [way_resolve hR hw]
  | @onDirectory target hist rest p hq hn hw hp =>
    left
    refine putFails hq hn (by simp) ?_
    unfold Fs.create
    rw [way_resolve hR hw]; dsimp only; rw [hp]; rfl
  | @stored target hist rest p d hq hw hp hc =>
    left
    obtain ⟨r, s1, f1, f2, f3, f4, f5⟩ := requests_read hf hq s ht
    have hn : ¬ NoLength hist := by
      rintro ⟨n1, n2⟩
      generalize none = x at hc
      cases hc with
      | chunked g1 => exact n1 g1
      | limited _ g => exact n2 _ g
    have hi := serveOneInner_handled H errText fs f1 (fun _ hx => hn (f4.2 hx))
    obtain ⟨b, hput⟩ := put_keeps (way_resolve hR hw) hp r.body d (by rw [f5 _ _ hc, endEvents, List.append_nil])
    have hh : handled H r.method r.uri r.body fs = FileHandler.put root target r.body fs := by
      rw [f2, f3]
      show H.put target r.body fs = _
      rw [hH.put]
    rw [hh, hput] at hi
    have hb : trace (HttpResponse.new c .OK (StreamEither.B (Wire.mk []) : Boxed Wire)).body = [] := by
      show trace (BufReader.new c (StreamEither.B (Wire.mk []) : Boxed Wire)) = _
      rw [BufReader.trace_new]
      rfl
    obtain ⟨g1, x, g2, _, g3⟩ := serve_succeeds hra hrel hkept _ hH.reads errText s fs hs _
      (.inl (by rw [hi]; rfl)) rfl [] [] (by rw [hb]; exact delivers_map c [] []) (by simp [Ended])
    refine ⟨x, Prod.ext g1 (Prod.ext g2 (by rw [within_state hH.release, hi])), ?_⟩
    rw [g3, ← e200, List.append_nil]; rfl
  | @broken target hist rest p d e hq hw hp hc =>
    left
    obtain ⟨r, s1, f1, f2, f3, f4, f5⟩ := requests_read hf hq s ht
    have hn : ¬ NoLength hist ∧ ¬ Retried c e ∧ e ≠ .lengthRequired := by
      generalize hr : some e = x at hc
      cases hc with
      | chunked g1 g2 => subst hr; exact ⟨fun h => h.1 g1, dechunks_error hf hlr g2⟩
      | limited _ g =>
        refine ⟨fun h => h.2 _ g, ?_⟩
        split at hr
        · exact ⟨hf e hr.symm, fun h => hlr (by rw [← hr, h])⟩
        · simp at hr
    obtain ⟨hn, e1, e2⟩ := hn
    obtain ⟨b, hput⟩ := put_breaks (way_resolve hR hw) hp r.body d e (by rw [f5 _ _ hc, endEvents]) e1
    refine failed r s1 e b _ f1 (fun _ hx => hn (f4.2 hx)) e2 ?_
    rw [f2, f3]
    show H.put target r.body fs = _
    rw [hH.put]
    exact hput

/-- Whatever of these the bytes are, the server does exactly what is said there. -/
theorem C186_answer {P : σ → Prop} (hra : ReadsApart σ) (hrel : Reliable c P) (hkept : ∀ s n, P s → P (read s n).2)
    {fs : Fs} {root : Bytes} {R : List Bytes} (hR : RootAt fs root R) (errText : Err → Bytes) (s : σ) (hs : P s)
    {stop : Option Err} (hf : Final c stop) (hlr : stop ≠ some .lengthRequired) (input : Bytes)
    (ht : trace s = input.map .byte ++ endEvents stop) {res : Res Unit} {out : Bytes} {fs' : Fs} (h : FileAnswers c errText fs R stop input res out fs') :
    ∃ d, (fileHandler c σ root errText).serveOne errText (.ok s) fs = (res, some d, fs') ∧ sent d = sent s ++ out := by
  have e200 : HttpStatus.display .OK = utf8 "200 OK" := by decide +kernel
  rcases answer_common hra hrel hkept hR errText (fileHandler_like root errText) s hs hf hlr input ht h with
    h | ⟨target, hist, rest, p, hq, hw, rfl, ⟨content, hp, rfl, rfl⟩ | ⟨hp, rfl, rfl⟩⟩
  · exact h
  · obtain ⟨r, s1, f1, f2, f3, f4, f5⟩ := requests_read hf hq s ht
    have hi := serveOneInner_handled (fileHandler c σ root errText) errText fs f1 (by intro h; rw [f2] at h; simp at h)
    have hh : handled (fileHandler c σ root errText) r.method r.uri r.body fs =
        (.ok (HttpResponse.new c .OK (.B ⟨[.data content]⟩)), r.body, fs) := by
      rw [f2, f3]
      show ((FileHandler.get c root target fs).1, r.body, (FileHandler.get c root target fs).2) = _
      unfold FileHandler.get Fs.openFile
      rw [way_resolve hR hw]; dsimp only; rw [hp]
    rw [hh] at hi
    have hb : trace (HttpResponse.new c .OK (StreamEither.B (Wire.mk [.data content]) : Boxed Wire)).body = content.map .byte := by
      show trace (BufReader.new c (StreamEither.B (Wire.mk [.data content]) : Boxed Wire)) = _
      rw [BufReader.trace_new]
      show content.map Ev.byte ++ [] = _
      rw [List.append_nil]
    obtain ⟨g1, d, g2, _, g3⟩ := serve_succeeds hra hrel hkept _ (fileHandler_onlyReads root errText) errText s fs hs _
      (.inl (by rw [hi]; rfl)) rfl content [] (by rw [hb]; simpa using delivers_map c content []) (by simp [Ended])
    refine ⟨d, Prod.ext g1 (Prod.ext g2 (by rw [file_state, hi])), ?_⟩
    rw [g3, ← e200, List.append_assoc]; rfl
  · obtain ⟨r, s1, f1, f2, f3, f4, f5⟩ := requests_read hf hq s ht
    have hi := serveOneInner_handled (fileHandler c σ root errText) errText fs f1 (by intro h; rw [f2] at h; simp at h)
    have hh : handled (fileHandler c σ root errText) r.method r.uri r.body fs =
        (.ok (HttpResponse.new c .OK (.B ⟨[.fault isDir]⟩)), r.body, fs) := by
      rw [f2, f3]
      show ((FileHandler.get c root target fs).1, r.body, (FileHandler.get c root target fs).2) = _
      unfold FileHandler.get Fs.openFile
      rw [way_resolve hR hw]; dsimp only; rw [hp]
    rw [hh] at hi
    have hb : trace (HttpResponse.new c .OK (StreamEither.B (Wire.mk [.fault isDir]) : Boxed Wire)).body = [.fault isDir] := by
      show trace (BufReader.new c (StreamEither.B (Wire.mk [.fault isDir]) : Boxed Wire)) = _
      rw [BufReader.trace_new]
      rfl
    obtain ⟨g1, d, g2, _, g3⟩ := C85_cut_partial hra hrel hkept _ (fileHandler_onlyReads root errText) errText s fs hs _
      (.inl (by rw [hi]; rfl)) (by show (1 : Nat) < 10; decide) (by show (1 : Nat) < 10; decide) [] [.fault isDir] [] isDir (by rw [hb]; exact .nil _)
      ⟨by simp [isDir, Retried], [], rfl, by simp [Ended]⟩
    refine ⟨d, Prod.ext g1 (Prod.ext g2 (by rw [file_state, hi])), ?_⟩
    rw [g3, List.append_nil, ← e200]
    exact congrArg (sent s ++ ·) (versionedHead_one _ _)

omit [CaseMap] [LawfulReader σ] [ZeroReader σ] [LawfulWriter σ] in
/-- In a tree no way ends at a symbolic link. -/
theorem comes_noLink {fs : Fs} (ht : Tree fs) {n : Nat} {cur cs p rest : List Bytes} (h : Comes fs n cur cs p rest)
    (hc : ∀ text, fs cur ≠ some (.link text)) : ∀ text, fs p ≠ some (.link text) := by
  have up : ∀ cur : List Bytes, fs cur = some .dir → fs cur.dropLast = some .dir := by
    intro cur h
    rcases List.eq_nil_or_concat cur with rfl | ⟨q, n, rfl⟩
    · exact ht.1
    · rw [List.concat_eq_append] at h ⊢
      rw [List.dropLast_concat]
      exact ht.2 q n (by rw [h]; simp)
  induction h with
  | here => exact hc
  | stay _ _ _ ih => exact ih hc
  | up h1 _ ih => exact ih (by rw [up _ h1]; simp)
  | down _ _ h2 _ ih => exact ih h2
  | relative _ _ _ _ _ _ ih => exact ih hc
  | absolute _ _ _ _ _ _ ih => exact ih (by rw [ht.1]; simp)

omit [CaseMap] [LawfulReader σ] [ZeroReader σ] [LawfulWriter σ] in
theorem way_noLink {fs : Fs} {R : List Bytes} (htree : Tree fs) (hR : fs R = some .dir) {target : Bytes} {p : List Bytes}
    (hw : Way fs R target (.ok p)) : ∀ text, fs p ≠ some (.link text) := by
  cases hw with
  | there _ _ hl =>
    obtain ⟨_, _, hl⟩ := hl
    exact comes_noLink htree hl (by rw [hR]; simp)

omit [LawfulReader σ] [ZeroReader σ] [LawfulWriter σ] in
/-- All bytes are one or the other. -/
theorem C186_total {fs : Fs} {R : List Bytes} (htree : Tree fs) (hR : fs R = some .dir) (errText : Err → Bytes) (stop : Option Err) (input : Bytes) :
    ∃ res out fs', FileAnswers c errText fs R stop input res out fs' := by
  by_cases hc : CutRequest c (input.map .byte ++ endEvents stop)
  · exact ⟨_, _, _, .cut hc⟩
  by_cases hq : ∃ m target hist rest, Requests c stop input m target hist rest
  case neg =>
    obtain ⟨e, he⟩ := (C188_total c (input.map .byte ++ endEvents stop)).1.2 ⟨hc, by
      rintro line hist t' m target major minor ⟨h1, h2⟩
      obtain ⟨rest, hr⟩ : ∃ rest : Bytes, t' = rest.map .byte ++ endEvents stop := by
        obtain ⟨_, _, _, h3, _⟩ := h2
        exact delivers_left h3
      subst hr
      exact hq ⟨_, _, _, _, line, _, _, h1, h2⟩⟩
    exact ⟨_, _, _, .malformed he⟩
  obtain ⟨m, target, hist, rest, hq⟩ := hq
  have noLink : ∀ p, Way fs R target (.ok p) → ∀ text, fs p ≠ some (.link text) := fun p hw => way_noLink htree hR hw
  obtain ⟨w, hw⟩ := way_total fs R target
  by_cases hn : (m = .Put ∨ m = .Post) ∧ NoLength hist
  · exact ⟨_, _, _, .noLength hq hn.1 hn.2⟩
  by_cases hg : m = .Get
  · subst hg
    cases w with
    | error e => exact ⟨_, _, _, .noWay hq hw⟩
    | ok p =>
      cases hp : fs p with
      | none => exact ⟨_, _, _, .noFile hq hw hp⟩
      | some x =>
        cases x with
        | dir => exact ⟨_, _, _, .directory hq hw hp⟩
        | file content => exact ⟨_, _, _, .file hq hw hp⟩
        | link text => exact absurd hp (noLink p hw text)
  by_cases hm : m = .Put
  · subst hm
    have hn' : ¬ NoLength hist := fun h => hn ⟨.inl rfl, h⟩
    cases w with
    | error e => exact ⟨_, _, _, .noPut hq hn' hw⟩
    | ok p =>
      have hcar : ∃ d r, Carried c stop hist rest d r := by
        by_cases h1 : LastNamed "transfer-encoding" hist (utf8 "chunked")
        · obtain ⟨d, r, h⟩ := C185_total c stop rest
          exact ⟨d, r, .chunked h1 h⟩
        · by_cases h2 : ∃ v, LastNamed "content-length" hist v
          · obtain ⟨v, h2⟩ := h2
            obtain ⟨_, _, _, _, _, _, _, _, _, _, h6⟩ := hq
            obtain ⟨n, k1, _⟩ := h6 v h2
            exact ⟨_, _, .limited h1 h2 k1⟩
          · exact absurd ⟨h1, fun v hv => h2 ⟨v, hv⟩⟩ hn'
      have store : Storable fs p → ∃ res out fs', FileAnswers c errText fs R stop input res out fs' := by
        intro hs
        obtain ⟨d, r, hcar⟩ := hcar
        cases r with
        | none => exact ⟨_, _, _, .stored hq hw hs hcar⟩
        | some e => exact ⟨_, _, _, .broken hq hw hs hcar⟩
      cases hp : fs p with
      | none => exact store (.inl hp)
      | some x =>
        cases x with
        | dir => exact ⟨_, _, _, .onDirectory hq hn' hw hp⟩
        | file content => exact store (.inr ⟨_, hp⟩)
        | link text => exact absurd hp (noLink p hw text)
  · exact ⟨_, _, _, .refused hq hg hm fun hpost h => hn ⟨.inr hpost, h⟩⟩

omit [LawfulReader σ] [ZeroReader σ] [LawfulWriter σ] in
theorem requestConn_trace (input : Bytes) : trace (requestConn input) = input.map .byte := by
  show input.map Ev.byte ++ [] = _
  rw [List.append_nil]

/-- The connection on which `bs` arrives, and which then ends or fails. -/
def stoppedConn (bs : Bytes) (stop : Option Err) : Duplex Wire Sink :=
  ⟨⟨match stop with | none => [.data bs] | some e => [.data bs, .fault e]⟩, ⟨[], 0, []⟩⟩

omit [LawfulReader σ] [ZeroReader σ] [LawfulWriter σ] [CaseMap] in
theorem stoppedConn_trace (input : Bytes) (stop : Option Err) : trace (stoppedConn input stop) = input.map .byte ++ endEvents stop := by
  cases stop <;> rfl

omit [LawfulReader σ] [ZeroReader σ] [LawfulWriter σ] in
/-- There is one answer to the same bytes, and the same files afterwards. -/
theorem C186_unique {fs : Fs} {root : Bytes} {R : List Bytes} (hR : RootAt fs root R) {errText : Err → Bytes} {stop : Option Err}
    (hf : Final c stop) (hlr : stop ≠ some .lengthRequired) {input : Bytes} {res res' : Res Unit} {out out' : Bytes} {fs' fs'' : Fs} (h : FileAnswers c errText fs R stop input res out fs')
    (h' : FileAnswers c errText fs R stop input res' out' fs'') : res = res' ∧ out = out' ∧ fs' = fs'' := by
  have key := fun {res out fs'} (h : FileAnswers c errText fs R stop input res out fs') =>
    C186_answer duplex_readsApart (duplex_reliable (σ := Sink) (sink_reliable c)) (fun _ _ h => h) hR errText
      (stoppedConn input stop) (by simp [stoppedConn]) hf hlr input (stoppedConn_trace input stop) h
  obtain ⟨d, h1, h2⟩ := key h
  obtain ⟨d', h3, h4⟩ := key h'
  rw [h1] at h3
  simp only [Prod.mk.injEq, Option.some.injEq] at h3
  obtain ⟨g1, g2, g3⟩ := h3
  subst g2
  rw [h2] at h4
  exact ⟨g1, List.append_cancel_left h4, g3⟩

omit [LawfulReader σ] [ZeroReader σ] [LawfulWriter σ] in
/-- The root and the tree stay. -/
theorem answers_keep {fs fs' : Fs} {root : Bytes} {R : List Bytes} (hR : RootAt fs root R) (htree : Tree fs) {errText : Err → Bytes}
    {stop : Option Err} {input : Bytes} {res : Res Unit} {out : Bytes} (h : FileAnswers c errText fs R stop input res out fs') : RootAt fs' root R ∧ Tree fs' := by
  have up : ∀ cur : List Bytes, fs cur = some .dir → fs cur.dropLast = some .dir := by
    intro cur h
    rcases List.eq_nil_or_concat cur with rfl | ⟨q, n, rfl⟩
    · exact htree.1
    · rw [List.concat_eq_append] at h ⊢
      rw [List.dropLast_concat]
      exact htree.2 q n (by rw [h]; simp)
  have above : ∀ {n cur cs p rest}, Comes fs n cur cs p rest → fs cur.dropLast = some .dir → fs p.dropLast = some .dir := by
    intro n cur cs p rest h
    induction h with
    | here => exact id
    | stay _ _ _ ih => exact ih
    | up h1 _ ih => exact fun _ => ih (up _ (up _ h1))
    | down h1 _ _ _ ih => exact fun _ => ih (by rw [List.dropLast_concat]; exact h1)
    | relative _ _ _ _ _ _ ih => exact ih
    | absolute _ _ _ _ _ _ ih => exact fun _ => ih htree.1
  have keep : ∀ {target p} (d : Bytes), Way fs R target (.ok p) → Storable fs p →
      RootAt (fun q => if q = p then some (.file d) else fs q) root R ∧ Tree fun q => if q = p then some (.file d) else fs q := by
    intro target p d hw hs
    refine ⟨hR.set hs d, ?_⟩
    have hnd : ∀ q, fs q = some .dir → q ≠ p := by
      rintro q h rfl
      rcases hs with h' | ⟨_, h'⟩ <;> rw [h] at h' <;> simp at h'
    have hpar : fs p.dropLast = some .dir := by
      cases hw with
      | there _ _ hl => obtain ⟨_, _, hl⟩ := hl; exact above hl (up _ hR.2.2.1)
    refine ⟨by dsimp only; rw [if_neg (hnd _ htree.1)]; exact htree.1, fun q n h => ?_⟩
    have hq : fs q = some .dir := by
      by_cases hx : q ++ [n] = p
      · rw [← hx, List.dropLast_concat] at hpar; exact hpar
      · dsimp only at h; rw [if_neg hx] at h; exact htree.2 q n h
    dsimp only
    rw [if_neg (hnd _ hq)]; exact hq
  cases h with
  | stored _ hw hs _ => exact keep _ hw hs
  | broken _ hw hs _ => exact keep _ hw hs
  | _ => exact ⟨hR, htree⟩

/-- The server's whole life: whatever bytes the connections bring before they end or fail, one after the other, the results, what is sent on each, and the
files at the end are as the rules say. -/
theorem C186_forever {P : σ → Prop} (hra : ReadsApart σ) (hrel : Reliable c P) (hkept : ∀ s n, P s → P (read s n).2)
    {root : Bytes} {R : List Bytes} (errText : Err → Bytes) (conns : List (σ × Bytes × Option Err))
    (hconn : ∀ x ∈ conns, P x.1 ∧ sent x.1 = [] ∧ Final c x.2.2 ∧ x.2.2 ≠ some .lengthRequired ∧
      trace x.1 = x.2.1.map .byte ++ endEvents x.2.2) (fs : Fs) (hR : RootAt fs root R) (htree : Tree fs) :
    ∃ outs, FileHistory c errText R fs (conns.map (·.2)) outs
        ((fileHandler c σ root errText).serveForever errText (conns.map fun x => .ok x.1) fs).2 ∧
      ((fileHandler c σ root errText).serveForever errText (conns.map fun x => .ok x.1) fs).1.map (fun x => (x.1, x.2.map sent)) =
        outs.map fun x => (x.1, some x.2) := by
  induction conns generalizing fs with
  | nil => exact ⟨[], .nil, rfl⟩
  | cons x conns ih =>
    obtain ⟨s, input, stop⟩ := x
    obtain ⟨hP, h0, hf, hlr, ht⟩ := hconn (s, input, stop) (by simp)
    have ih := ih fun y hy => hconn y (by simp [hy])
    dsimp only at hP h0 hf hlr ht
    have hone : ∃ d res out fs', (fileHandler c σ root errText).serveOne errText (.ok s) fs = (res, some d, fs') ∧ sent d = out ∧
        FileAnswers c errText fs R stop input res out fs' ∧ RootAt fs' root R ∧ Tree fs' := by
      obtain ⟨res, out, fs', h⟩ := C186_total (c := c) htree hR.2.2.1 errText stop input
      obtain ⟨d, h1, h2⟩ := C186_answer hra hrel hkept hR errText s hP hf hlr input ht h
      obtain ⟨h3, h4⟩ := answers_keep hR htree h
      exact ⟨d, res, out, fs', h1, by rw [h2, h0, List.nil_append], h, h3, h4⟩
    obtain ⟨d, res, out, fs', h1, h2, h3, h4, h5⟩ := hone
    obtain ⟨outs, h6, h7⟩ := ih fs' h4 h5
    rw [List.map_cons, List.map_cons]
    unfold Handler.serveForever
    rw [h1]
    cases res with
    | panic => exact ⟨[(.panic, out)], .panic h3, by simp [h2]⟩
    | ok u => exact ⟨(.ok (), out) :: outs, .next h3 (by simp) h6, by dsimp only; rw [List.map_cons, h7]; simp [h2]⟩
    | err e => exact ⟨(.err e, out) :: outs, .next h3 (by simp) h6, by dsimp only; rw [List.map_cons, h7]; simp [h2]⟩

omit [LawfulReader σ] [ZeroReader σ] [LawfulWriter σ] in
/-- The bytes settle it: no two histories. -/
theorem C186_history_unique {root : Bytes} {R : List Bytes} {errText : Err → Bytes} {fs fs' fs'' : Fs} (hR : RootAt fs root R)
    (htree : Tree fs) {inputs : List (Bytes × Option Err)} (hin : ∀ x ∈ inputs, Final c x.2 ∧ x.2 ≠ some .lengthRequired)
    {outs outs' : List (Res Unit × Bytes)} (h : FileHistory c errText R fs inputs outs fs')
    (h' : FileHistory c errText R fs inputs outs' fs'') : outs = outs' ∧ fs' = fs'' := by
  induction h generalizing outs' fs'' with
  | nil => cases h'; exact ⟨rfl, rfl⟩
  | panic h1 =>
    cases h' with
    | panic k1 =>
      obtain ⟨_, rfl, rfl⟩ := C186_unique hR (hin _ List.mem_cons_self).1 (hin _ List.mem_cons_self).2 h1 k1
      exact ⟨rfl, rfl⟩
    | next k1 k2 _ => exact absurd (C186_unique hR (hin _ List.mem_cons_self).1 (hin _ List.mem_cons_self).2 h1 k1).1.symm k2
  | next h1 h2 _ ih =>
    cases h' with
    | panic k1 => exact absurd (C186_unique hR (hin _ List.mem_cons_self).1 (hin _ List.mem_cons_self).2 h1 k1).1 h2
    | next k1 k2 k3 =>
      obtain ⟨rfl, rfl, rfl⟩ := C186_unique hR (hin _ List.mem_cons_self).1 (hin _ List.mem_cons_self).2 h1 k1
      obtain ⟨h3, h4⟩ := answers_keep hR htree h1
      obtain ⟨rfl, rfl⟩ := ih h3 h4 (fun x hx => hin x (by simp [hx])) k3
      exact ⟨rfl, rfl⟩

end

theorem sampleFs_tree : Tree sampleFs := by
  refine ⟨by decide, fun q n h => ?_⟩
  have hd : ∀ x : List Bytes, x ≠ [] → (q ++ [n] = x → q = x.dropLast) := by rintro x _ rfl; rw [List.dropLast_concat]
  unfold sampleFs at h
  split at h
  · rename_i hx
    rcases hx with hx | hx
    · simp at hx
    · rw [hd _ (by decide) hx]; decide
  · split at h
    · rename_i hx; rw [hd _ (by decide) hx]; decide
    · split at h
      · rename_i hx; rw [hd _ (by decide) hx]; decide
      · exact absurd rfl h

/-- Witness for `C186_answer` and `C186_unique`: an upload in chunks that is cut off in the second, by the end or by a
failure. What has come is in the file, and the answer is 500. -/
example (c : Cfg) (stop : Option Err) : let _ := asciiCase
    FileAnswers c (fun _ => b!"?") sampleFs [b!"srv"] stop b!"PUT /new HTTP/1.1\r\nTransfer-Encoding: chunked\r\n\r\n2\r\nab\r\n5\r\nde" (.ok ())
      (responseHead (utf8 "500 Internal Server Error") [] ++ b!"?")
      (fun q => if q = [b!"srv", b!"new"] then some (.file b!"abde") else sampleFs q) := by
  intro _
  have hhex : ∀ (t : Bytes) (n : Nat), parseHex64 t = .ok n → UnsignedText 16 t n := fun t n h => ((C07_hex_parse t n).1 h).1
  refine .broken (target := b!"/new") (hist := [(b!"Transfer-Encoding", b!"chunked")]) (rest := b!"2\r\nab\r\n5\r\nde")
    (p := [b!"srv", b!"new"]) (d := b!"abde") (e := cutError c stop) ⟨b!"PUT /new HTTP/1.1", 1, 1, ?_, ?_⟩
    (.there (cs := [b!"new"]) (by decide) ⟨1, b!"new", rfl, by decide, splitPath_iff.2 (by decide)⟩ (walk_iff.1 (by rfl)))
    (.inl (by decide)) (.chunked ?_ ?_)
  · refine ⟨b!"HTTP/1.1", ⟨b!"PUT", b!" ", b!" ", b!"HTTP/1.1", rfl, ⟨by decide, by decide⟩, ⟨by decide, by decide⟩,
      ⟨by decide, by decide⟩, ⟨by decide, by decide⟩, ?_, ⟨by decide, .inl rfl⟩, by decide⟩,
      49, 49, [], by decide +kernel, .dec 1 (by decide) (by decide), .dec 1 (by decide) (by decide)⟩
    rw [methodName_bytes]; decide
  · refine ⟨[b!"Transfer-Encoding: chunked"], rawLine_of (by decide) (by decide) (by decide), ?_, ?_, ?_, by decide, ?_⟩
    · intro l hl
      simp only [List.mem_cons, List.not_mem_nil, or_false] at hl
      subst hl; exact rawLine_of (by decide) (by decide) (by decide)
    · exact delivers_map c (blockBytes [b!"PUT /new HTTP/1.1", b!"Transfer-Encoding: chunked"]) (b!"2\r\nab\r\n5\r\nde".map .byte ++ endEvents stop)
    · exact Folded.line (first := b!"Transfer-Encoding: chunked") (conts := []) (rest := []) (by simp) (by simp) .nil
    · rintro v ⟨pre, k, post, h1, h2, _⟩
      have hk : (k, v) ∈ [(b!"Transfer-Encoding", b!"chunked")] := by rw [h1]; simp
      simp only [List.mem_cons, List.not_mem_nil, or_false, Prod.mk.injEq] at hk
      rw [utf8_contentLength] at h2
      rcases hk with ⟨rfl, _⟩; exact absurd h2 (by decide)
  · refine ⟨[], b!"Transfer-Encoding", [], by rw [show utf8 "chunked" = b!"chunked" by decide +kernel]; rfl, ?_, by simp⟩
    dsimp only
    rw [show utf8 "transfer-encoding" = b!"transfer-encoding" by decide +kernel]; decide
  · exact .chunk (ch := ⟨b!"2", b!"ab", b!"\r\n"⟩) (rest := b!"5\r\nde") (d := b!"de") ⟨hhex _ _ (by decide +kernel), by decide, by decide, rfl⟩
      (.short (size := b!"5") (d := b!"de") (n := 5) (hhex _ _ (by decide +kernel)) (by decide) (by decide))

/-- Witness for `C186_malformed`: bytes that are no request. -/
example (c : Cfg) : let _ := asciiCase
    RequestFault c (b!"BREW / HTTP/1.1\r\n\r\n".map .byte) .parse := by
  intro _
  have h : (HttpRequest.deserialize c (requestConn b!"BREW / HTTP/1.1\r\n\r\n")).1 = .err .parse :=
    err_of (by rcases c with ⟨_ | _⟩ <;> decide +kernel)
  have := (C188_request c _ _).1 h
  rwa [requestConn_trace] at this

/-- Witness for `C186_total`, `C186_forever` and `C186_history_unique`: a file is put, fetched, and a directory is asked for; an
upload is cut off by a failure; then the parser panics, and the last connection is not served. -/
example (c : Cfg) : let _ := asciiCase
    let inputs := [(b!"PUT /n HTTP/1.1\r\ncontent-length: 2\r\n\r\nhi", some (.io (.other 104))), (b!"GET /n HTTP/1.1\r\n\r\n", none),
      (b!"GET / HTTP/1.1\r\n\r\n", none), (b!"PUT /n HTTP/1.1\r\ncontent-length: 3\r\n\r\nho", some (.io (.other 104))),
      (b!"GET / HTTP/é\r\n\r\n", none), (b!"GET /n HTTP/1.1\r\n\r\n", none)]
    RootAt sampleFs b!"/srv" [b!"srv"] ∧ Tree sampleFs ∧
    (∀ x ∈ inputs.map fun i => (stoppedConn i.1 i.2, i), sent x.1 = [] ∧ trace x.1 = x.2.1.map .byte ++ endEvents x.2.2) ∧
    (∀ x ∈ inputs, Final c x.2 ∧ x.2 ≠ some .lengthRequired) ∧
    ((fileHandler c (Duplex Wire Sink) b!"/srv" fun _ => b!"?").serveForever (fun _ => b!"?") 
      (inputs.map fun i => .ok (stoppedConn i.1 i.2)) sampleFs).1.map (fun x => (x.1, x.2.map sent)) =
      [(.ok (), some b!"HTTP/1.1 200 OK\r\n\r\n"), (.ok (), some b!"HTTP/1.1 200 OK\r\n\r\nhi"),
        (.err (.io (.other 21)), some b!"HTTP/1.1 200 OK\r\n\r\n"),
        (.ok (), some b!"HTTP/1.1 500 Internal Server Error\r\n\r\n?"), (.panic, some [])] := by
  intro _ inputs
  refine ⟨sampleFs_root, sampleFs_tree, fun x hx => ?_, fun x hx => ?_, ?_⟩
  · obtain ⟨i, _, rfl⟩ := List.mem_map.1 hx
    exact ⟨rfl, stoppedConn_trace i.1 i.2⟩
  · simp only [inputs, List.mem_cons, List.not_mem_nil, or_false] at hx
    rcases hx with rfl | rfl | rfl | rfl | rfl | rfl <;> refine ⟨fun e he => ?_, by simp⟩ <;> simp at he
    all_goals subst he; simp [Retried]
  · rcases c with ⟨_ | _⟩ <;> decide +kernel

end HttpIo
