import Verif.Lemmas.Panic
import Verif.Props.Rfc
import Verif.Props.Server

/-! Exactly which streams the message parsers accept (C69), and exactly which panic them (C11, C54). -/

namespace HttpIo
open Spec

section
variable [CaseMap] {σ : Type} [LawfulReader σ]

theorem utf8_contentLength : utf8 "content-length" = b!"content-length" := by decide +kernel

/-! ### C69 -/

omit [LawfulReader σ] in
theorem hist_of_lines {logical : List Bytes} (h : ∀ l ∈ logical, ∃ k v, HeaderLine l k v) :
    ∃ hist : List (Bytes × Bytes), logical = hist.map (fun kv => kv.1 ++ [58, 32] ++ kv.2) ∧ ∀ kv ∈ hist, (58 : UInt8) ∉ kv.1 := by
  induction logical with
  | nil => exact ⟨[], rfl, by simp⟩
  | cons l ls ih =>
    obtain ⟨hist, h1, h2⟩ := ih fun x hx => h x (by simp [hx])
    obtain ⟨k, v, hkv, hk⟩ := h l (by simp)
    refine ⟨(k, v) :: hist, by rw [h1, hkv]; rfl, ?_⟩
    intro kv hm
    simp only [List.mem_cons] at hm
    rcases hm with rfl | hm
    · exact hk
    · exact h2 kv hm

omit [LawfulReader σ] in
theorem answersLike_insertAll (hist : List (Bytes × Bytes)) :
    AnswersLike (HttpHeaders.get ⟨insertAll (hist.map fun kv => (CaseMap.lower kv.1, kv.2)) []⟩) hist := by
  intro name
  refine ⟨fun v => ?_, ?_⟩
  · unfold HttpHeaders.get; rw [mapGet_insertAll, lastWith_map_lower]
  · unfold HttpHeaders.get; rw [mapGet_insertAll_none, List.forall_mem_map]

/-- A head that is accepted is a well-formed head, and its lines are inserted one by one. -/
theorem head_entries {α : Type} {c : Cfg} {start : Bytes → Res α} {s s' : σ} {a : α} {hs : HttpHeaders} {enc : Option Bytes}
    {n : Option Nat} (h : parseHead c start s = (.ok (a, hs, enc, n), s')) :
    ∃ line hist, start line = .ok a ∧ HeadOf c (trace s) line hist (trace s') ∧
      hs = ⟨insertAll (hist.map fun kv => (CaseMap.lower kv.1, kv.2)) []⟩ := by
  obtain ⟨line, raw, h1, h2, h3, h4⟩ := parseHead_inv h
  obtain ⟨logical, hf⟩ := folded_exists raw
  obtain ⟨k1, k2⟩ := parseHead_block (start := start) h1 h2 hf h4
  rw [h] at k1
  have htext := folded_isText hf h2
  unfold headOutcome at k1
  rw [h3] at k1
  dsimp only at k1
  cases hp : parseLines logical with
  | err e => rw [hp] at k1; simp at k1
  | panic => rw [hp] at k1; simp at k1
  | ok hds =>
    obtain ⟨hist, g1, g2⟩ := hist_of_lines ((parseLines_iff htext).1 ⟨hds, hp⟩)
    subst g1
    have hp' := parseLines_ok g2 (fun kv hkv => htext _ (List.mem_map.2 ⟨kv, hkv, rfl⟩))
    rw [hp] at hp' k1
    simp only [Res.ok.injEq] at hp'
    dsimp only at k1
    have hent : HttpHeaders.fromVec hds = ⟨insertAll (hist.map fun kv => (CaseMap.lower kv.1, kv.2)) []⟩ := by
      have := fromVec_entries hds
      rw [hp', List.map_map] at this
      rw [← hp'] at this
      cases hh : HttpHeaders.fromVec hds with
      | mk e => rw [hh] at this; simp only at this; rw [this]; rfl
    rw [hent] at k1
    cases hcl : contentLengthOf ⟨insertAll (hist.map fun kv => (CaseMap.lower kv.1, kv.2)) []⟩ with
    | err e => rw [hcl] at k1; simp at k1
    | panic => rw [hcl] at k1; simp at k1
    | ok n' =>
      rw [hcl] at k1
      simp only [Res.ok.injEq, Prod.mk.injEq] at k1
      obtain ⟨_, rfl, _⟩ := k1
      refine ⟨line, hist, h3, ⟨raw, h1, h2, h4, hf, g2, ?_⟩, rfl⟩
      intro v hv
      have hsorted : SortedNames (insertAll (hist.map fun kv => (CaseMap.lower kv.1, kv.2)) []) :=
        insertAll_sorted (by simp [SortedNames])
      have hmem := (mapGet_iff hsorted b!"content-length" v).1
        (by rw [mapGet_insertAll, lastWith_map_lower, ← utf8_contentLength]; exact hv)
      exact (framing_new (c := c) hsorted hcl ()).2 v hmem

/-- A head that is accepted is a well-formed head. -/
theorem head_sound {α : Type} {c : Cfg} {start : Bytes → Res α} {s s' : σ} {a : α} {hs : HttpHeaders} {enc : Option Bytes}
    {n : Option Nat} (h : parseHead c start s = (.ok (a, hs, enc, n), s')) :
    ∃ line hist, start line = .ok a ∧ HeadOf c (trace s) line hist (trace s') ∧ AnswersLike hs.get hist := by
  obtain ⟨line, hist, h1, h2, h3⟩ := head_entries h
  exact ⟨line, hist, h1, h2, by rw [h3]; exact answersLike_insertAll hist⟩

/-- Every request that is accepted is well formed: its bytes are a request line, header lines and a blank line; method,
target, version and headers are those of the text; and what follows is left. -/
theorem C69_request_sound (c : Cfg) (s s' : σ) (r : HttpRequest c σ) (h : HttpRequest.deserialize c s = (.ok r, s')) :
    ∃ line hist, RequestLine line r.method r.uri r.version.major r.version.minor ∧
      HeadOf c (trace s) line hist (trace s') ∧ AnswersLike r.headers.get hist := by
  unfold HttpRequest.deserialize at h
  rcases h1 : parseHead c parseRequestLine s with ⟨⟨⟨m, uri, v⟩, hs, enc, n⟩ | e | _, s1⟩ <;> rw [h1] at h
  · simp only [Prod.mk.injEq, Res.ok.injEq] at h
    obtain ⟨rfl, rfl⟩ := h
    obtain ⟨line, hist, k1, k2, k3⟩ := head_sound h1
    have hl : RawLine line := by obtain ⟨_, hl, _⟩ := k2; exact hl
    exact ⟨line, hist, (requestLine_ok_iff ((validUtf8_iff _).2 hl.2.2) _ _ _).1 k1, k2, k3⟩
  · simp at h
  · simp at h

/-- Every well-formed request is accepted. -/
theorem C69_request_complete (c : Cfg) (s : σ) (line : Bytes) (m : HttpMethod) (target : Bytes) (v : HttpVersion)
    (hist : List (Bytes × Bytes)) (t' : List Ev) (hline : RequestLine line m target v.major v.minor)
    (hd : HeadOf c (trace s) line hist t') :
    ∃ r s', HttpRequest.deserialize c s = (.ok r, s') ∧ trace s' = t' ∧ r.method = m ∧ r.uri = target ∧ r.version = v ∧
      AnswersLike r.headers.get hist := by
  obtain ⟨raw, h1, h2, h3, h4, h5, h6⟩ := hd
  rw [utf8_contentLength] at h6
  have h7 : blockBytes (line :: raw) = line ++ [13, 10] ++ blockBytes raw := by simp [blockBytes]
  rw [h7] at h3
  obtain ⟨enc, n, s', k1, k2⟩ := head_hist h1 ((requestLine_ok_iff ((validUtf8_iff _).2 h1.2.2) m target v).2 hline) h4 h2 h5 h6 h3
  unfold HttpRequest.deserialize
  rw [k1]
  exact ⟨_, _, rfl, k2, rfl, rfl, rfl, answersLike_insertAll hist⟩

/-- The same for responses. -/
theorem C69_response_sound (c : Cfg) (s s' : σ) (r : HttpResponse c (BufReader c σ)) (h : HttpResponse.deserialize c s = (.ok r, s')) :
    ∃ line hist, StatusLine line r.version.major r.version.minor r.status.toCode.toNat ∧
      HeadOf c (trace s) line hist (trace s') ∧ AnswersLike r.headers.get hist := by
  unfold HttpResponse.deserialize at h
  rcases h1 : parseHead c parseStatusLine s with ⟨⟨⟨v, st⟩, hs, enc, n⟩ | e | _, s1⟩ <;> rw [h1] at h
  · simp only [Prod.mk.injEq, Res.ok.injEq] at h
    obtain ⟨rfl, rfl⟩ := h
    obtain ⟨line, hist, k1, k2, k3⟩ := head_sound h1
    have hl : RawLine line := by obtain ⟨_, hl, _⟩ := k2; exact hl
    obtain ⟨code, k4, k5⟩ := (statusLine_ok_iff ((validUtf8_iff _).2 hl.2.2) _ _).1 k1
    refine ⟨line, hist, ?_, k2, k3⟩
    have hlt : code < 2 ^ 32 := by obtain ⟨_, _, _, _, _, _, _, _, _, _, _, h⟩ := k4; exact h
    dsimp only
    rw [k5, C01_code_lossless]
    simpa [Nat.mod_eq_of_lt hlt] using k4
  · simp at h
  · simp at h

theorem C69_response_complete (c : Cfg) (s : σ) (line : Bytes) (v : HttpVersion) (code : Nat)
    (hist : List (Bytes × Bytes)) (t' : List Ev) (hline : StatusLine line v.major v.minor code)
    (hd : HeadOf c (trace s) line hist t') :
    ∃ r s', HttpResponse.deserialize c s = (.ok r, s') ∧ trace s' = t' ∧ r.version = v ∧ r.status.toCode.toNat = code ∧
      AnswersLike r.headers.get hist := by
  obtain ⟨raw, h1, h2, h3, h4, h5, h6⟩ := hd
  rw [utf8_contentLength] at h6
  have h7 : blockBytes (line :: raw) = line ++ [13, 10] ++ blockBytes raw := by simp [blockBytes]
  rw [h7] at h3
  obtain ⟨enc, n, s', k1, k2⟩ := head_hist h1
    ((statusLine_ok_iff ((validUtf8_iff _).2 h1.2.2) v (HttpStatus.fromCode (UInt32.ofNat code))).2 ⟨code, hline, rfl⟩) h4 h2 h5 h6 h3
  have hlt : code < 2 ^ 32 := by obtain ⟨_, _, _, _, _, _, _, _, _, _, _, h⟩ := hline; exact h
  unfold HttpResponse.deserialize
  rw [k1]
  refine ⟨_, _, rfl, k2, rfl, ?_, answersLike_insertAll hist⟩
  dsimp only
  rw [C01_code_lossless]
  simp [Nat.mod_eq_of_lt hlt]

/-! ### C11 -/

/-- Exactly which streams panic the parser of requests, with any transport failures anywhere. -/
theorem C11_request_panics_iff (c : Cfg) (s : σ) : (HttpRequest.deserialize c s).1 = .panic ↔ CutRequest c (trace s) := by
  have hp : (HttpRequest.deserialize c s).1 = .panic ↔ (parseHead c parseRequestLine s).1 = .panic := by
    unfold HttpRequest.deserialize
    rcases parseHead c parseRequestLine s with ⟨⟨⟨m, uri, v⟩, hs, enc, n⟩ | e | _, s1⟩ <;> simp
  rw [hp, parseHead_panic_iff]
  constructor
  · rintro ⟨line, t, h1, h2, h3⟩
    have hv := (validUtf8_iff _).2 h1.2.2
    refine ⟨line, t, h1, h2, h3.imp (requestLine_panic_iff hv).1 ?_⟩
    rintro ⟨⟨⟨m, target, ver⟩, ha⟩, hc⟩
    exact ⟨⟨m, target, _, _, (requestLine_ok_iff hv m target ver).1 ha⟩, hc⟩
  · rintro ⟨line, t, h1, h2, h3⟩
    have hv := (validUtf8_iff _).2 h1.2.2
    refine ⟨line, t, h1, h2, h3.imp (requestLine_panic_iff hv).2 ?_⟩
    rintro ⟨⟨m, target, major, minor, hl⟩, hc⟩
    exact ⟨⟨_, (requestLine_ok_iff hv m target ⟨major, minor⟩).2 hl⟩, hc⟩

/-- Exactly which streams panic the parser of responses. -/
theorem C11_response_panics_iff (c : Cfg) (s : σ) : (HttpResponse.deserialize c s).1 = .panic ↔ CutResponse c (trace s) := by
  have hp : (HttpResponse.deserialize c s).1 = .panic ↔ (parseHead c parseStatusLine s).1 = .panic := by
    unfold HttpResponse.deserialize
    rcases parseHead c parseStatusLine s with ⟨⟨⟨v, st⟩, hs, enc, n⟩ | e | _, s1⟩ <;> simp
  rw [hp, parseHead_panic_iff]
  constructor
  · rintro ⟨line, t, h1, h2, h3⟩
    have hv := (validUtf8_iff _).2 h1.2.2
    refine ⟨line, t, h1, h2, h3.imp (statusLine_panic_iff hv).1 ?_⟩
    rintro ⟨⟨⟨ver, st⟩, ha⟩, hc⟩
    obtain ⟨code, hl, _⟩ := (statusLine_ok_iff hv ver st).1 ha
    exact ⟨⟨_, _, code, hl⟩, hc⟩
  · rintro ⟨line, t, h1, h2, h3⟩
    have hv := (validUtf8_iff _).2 h1.2.2
    refine ⟨line, t, h1, h2, h3.imp (statusLine_panic_iff hv).2 ?_⟩
    rintro ⟨⟨major, minor, code, hl⟩, hc⟩
    exact ⟨⟨_, (statusLine_ok_iff hv ⟨major, minor⟩ _).2 ⟨code, hl, rfl⟩⟩, hc⟩

end

/-! ### C54 -/

section
variable [CaseMap] {c : Cfg} {η σ ρ ε : Type} [LawfulReader σ] [LawfulReader ρ] [ZeroReader ρ] [LawfulWriter σ]

/-- Exactly when serving a connection panics: the request panics the parser, or it is dispatched (it is not one with a
body of unknown length for a method that needs one) and the handler panics. -/
theorem C54_panics_iff (h : Handler c η σ ρ ε) (errText : Err → Bytes) (s : σ) (self : η) :
    (h.serveOne errText (.ok s) self).1 = .panic ↔
      CutRequest c (trace s) ∨ ∃ r s', HttpRequest.deserialize c (BufReader.new c s) = (.ok r, s') ∧
        (r.method = .Put ∨ r.method = .Post → framing r.body ≠ .tilClose) ∧
        (handled h r.method r.uri r.body self).1 = .panic := by
  have hcut := C11_request_panics_iff c (BufReader.new c s)
  rw [BufReader.trace_new] at hcut
  rw [← hcut]
  have hone : (h.serveOne errText (.ok s) self).1 = .panic ↔ (h.serveOneInner errText s self).1 = .panic := by
    unfold Handler.serveOne
    dsimp only
    rcases h.serveOneInner errText s self with ⟨r | r | _, s1, self1⟩ <;> dsimp only
    · rcases respond c r s1 with ⟨e | _, b, s2⟩ <;> simp
    · rcases respond c r s1 with ⟨e | _, b, s2⟩ <;> simp
    · simp
  rw [hone]
  rcases inner_cases h errText s self with ⟨e, s1, hp⟩ | ⟨s1, hp⟩ | ⟨r, s1, hp, hr⟩ | ⟨r, s1, hp, hr⟩
  · rw [serveOneInner_err h errText self hp, hp]; simp
  · rw [serveOneInner_panic h errText self hp, hp]; simp
  · rw [serveOneInner_handled h errText self hp hr, hp]
    simp only [Prod.mk.injEq, Res.ok.injEq, reduceCtorEq, false_or]
    constructor
    · intro hx
      refine ⟨r, s1, ⟨rfl, rfl⟩, hr, ?_⟩
      generalize (handled h r.method r.uri r.body self).1 = x at hx
      cases x <;> simp [Reply.mapErr] at hx ⊢
    · rintro ⟨r', s', ⟨rfl, rfl⟩, _, hx⟩
      rw [hx]; rfl
  · rw [serveOneInner_refused h errText self hp hr, hp]
    simp only [Prod.mk.injEq, Res.ok.injEq, reduceCtorEq, false_or]
    refine iff_of_false (by simp) ?_
    rintro ⟨r', s', ⟨rfl, rfl⟩, hr', _⟩
    exact hr hr'

/-- The loop for all connections and handlers: connections are served in the order of `accept`, each result depends on
the others only through the state of the handler, only the last result can be a panic, and if not every connection was
served the last result is one. -/
theorem C54_until_panic (h : Handler c η σ ρ ε) (errText : Err → Bytes) (accepted : List (Res σ)) (self : η) :
    ∃ st : Nat → η, st 0 = self ∧
      (h.serveForever errText accepted self).1.length ≤ accepted.length ∧
      (h.serveForever errText accepted self).2 = st (h.serveForever errText accepted self).1.length ∧
      (∀ i res d, (h.serveForever errText accepted self).1[i]? = some (res, d) →
        ∃ a, accepted[i]? = some a ∧ h.serveOne errText a (st i) = (res, d, st (i + 1)) ∧
          (i + 1 < (h.serveForever errText accepted self).1.length → res ≠ .panic)) ∧
      ((h.serveForever errText accepted self).1.length < accepted.length →
        ∃ d, (h.serveForever errText accepted self).1.getLast? = some (.panic, d)) := by
  induction accepted generalizing self with
  | nil => exact ⟨fun _ => self, rfl, by simp [Handler.serveForever], rfl, by simp [Handler.serveForever], by simp⟩
  | cons a rest ih =>
    rcases ha : h.serveOne errText a self with ⟨res, d, self1⟩
    by_cases hp : res = .panic
    · subst hp
      have : h.serveForever errText (a :: rest) self = ([(.panic, d)], self1) := by
        rw [Handler.serveForever, ha]
      rw [this]
      refine ⟨fun i => match i with | 0 => self | _ + 1 => self1, rfl, by simp, rfl, ?_, fun _ => ⟨d, rfl⟩⟩
      intro i res d' hi
      cases i with
      | zero =>
        simp only [List.getElem?_cons_zero, Option.some.injEq, Prod.mk.injEq] at hi
        exact ⟨a, rfl, by rw [ha, hi.1, hi.2], by simp⟩
      | succ i => simp at hi
    · obtain ⟨st, h1, h2, h3, h4, h5⟩ := ih self1
      rw [serveForever_step h errText ha hp]
      refine ⟨fun i => match i with | 0 => self | i + 1 => st i, rfl, by simpa using h2, h3, ?_, ?_⟩
      · intro i res' d' hi
        cases i with
        | zero =>
          simp only [List.getElem?_cons_zero, Option.some.injEq, Prod.mk.injEq] at hi
          refine ⟨a, rfl, ?_, fun _ => by rw [← hi.1]; exact hp⟩
          dsimp only
          rw [ha, h1, hi.1, hi.2]
        | succ i =>
          rw [List.getElem?_cons_succ] at hi
          obtain ⟨a', k1, k2, k3⟩ := h4 i res' d' hi
          exact ⟨a', k1, k2, fun hlt => k3 (by simpa using hlt)⟩
      · intro hlt
        obtain ⟨d', hd'⟩ := h5 (by simpa using hlt)
        refine ⟨d', ?_⟩
        rw [List.getLast?_cons, hd']; rfl

end

/-! ### Witnesses -/

theorem rawLine_of {l : Bytes} (h1 : l ≠ []) (h2 : ∀ i, i < l.length → ¬ (l[i]? = some 13 ∧ l[i + 1]? = some 10))
    (h3 : validUtf8 l = true) : RawLine l := by
  refine ⟨h1, ?_, (validUtf8_iff l).1 h3⟩
  rw [hasCrLf_iff]
  rintro ⟨i, h4, h5⟩
  have : i < l.length := by
    rcases Nat.lt_or_ge i l.length with h | h
    · exact h
    · rw [List.getElem?_eq_none h] at h4; simp at h4
  exact h2 i this ⟨h4, h5⟩

/-- An accepted request: the method is written oddly, the gaps are wide, the target is not ASCII, the version has a tail,
more words follow; one header is folded, and its name is repeated in another case. -/
example (c : Cfg) : let _ := asciiCase
    RequestLine b!"pOsT \t /é HTTP/0.9x  more" .Post b!"/é" 0 9 ∧
    HeadOf c (trace (Wire.mk [.data b!"pOsT \t /é HTTP/0.9x  mo", .data b!"re\r\nA: b\r\n  c\r\na: é\r\n\r\nrest"]))
      b!"pOsT \t /é HTTP/0.9x  more" [(b!"A", b!"b  c"), (b!"a", b!"é")] (b!"rest".map .byte) := by
  intro _
  refine ⟨⟨b!"HTTP/0.9x", ⟨b!"pOsT", b!" \t ", b!" ", b!"HTTP/0.9x  more", rfl, ⟨by decide, by decide⟩, ⟨by decide, by decide⟩,
    ⟨by decide, by decide⟩, ⟨by decide, by decide⟩, ?_, ⟨by decide, .inr ⟨32, b!" more", rfl, .inl rfl⟩⟩, by decide⟩,
    48, 57, b!"x", by decide +kernel, .dec 0 (by decide) (by decide), .dec 9 (by decide) (by decide)⟩,
    [b!"A: b", b!"  c", b!"a: é"], rawLine_of (by decide) (by decide) (by decide), ?_, ?_, ?_, by decide, ?_⟩
  · rw [methodName_bytes]; decide
  · intro l hl
    simp only [List.mem_cons, List.not_mem_nil, or_false] at hl
    rcases hl with rfl | rfl | rfl <;> exact rawLine_of (by decide) (by decide) (by decide)
  · exact delivers_map c (blockBytes [b!"pOsT \t /é HTTP/0.9x  more", b!"A: b", b!"  c", b!"a: é"]) (b!"rest".map .byte)
  · refine Folded.line (first := b!"A: b") (conts := [b!"  c"]) (rest := [b!"a: é"]) ?_ ?_ ?_
    · intro l hl
      simp only [List.mem_cons, List.not_mem_nil, or_false] at hl
      subst hl; exact ⟨32, _, rfl, .inl rfl⟩
    · intro l hl
      simp only [List.head?_cons, Option.some.injEq] at hl
      subst hl; rw [← startsBlank_iff]; decide
    · exact Folded.line (first := b!"a: é") (conts := []) (rest := []) (by simp) (by simp) .nil
  · rintro v ⟨pre, k, post, h1, h2, _⟩
    have hk : (k, v) ∈ [(b!"A", b!"b  c"), (b!"a", b!"é")] := by rw [h1]; simp
    simp only [List.mem_cons, List.not_mem_nil, or_false, Prod.mk.injEq] at hk
    rw [utf8_contentLength] at h2
    rcases hk with ⟨rfl, _⟩ | ⟨rfl, _⟩ <;> exact absurd h2 (by decide)

/-- An accepted response: a version nobody uses, a signed code, no reason. -/
example (c : Cfg) : let _ := asciiCase
    StatusLine b!"HTTP/9.9 +200" 9 9 200 ∧
    HeadOf c (trace (Wire.mk [.data b!"HTTP/9.9 +200\r\n\r\n"])) b!"HTTP/9.9 +200" [] [] := by
  intro _
  refine ⟨⟨b!"HTTP/9.9", b!" ", b!"+200", b!"+200", rfl, ⟨by decide, .inr ⟨32, b!"+200", rfl, .inl rfl⟩⟩, ⟨by decide, by decide⟩,
    by rw [← startsBlank_iff]; decide, ⟨57, 57, [], by decide +kernel, .dec 9 (by decide) (by decide), .dec 9 (by decide) (by decide)⟩,
    ⟨by decide, .inl rfl⟩, .inr ⟨b!"200", rfl, ?_⟩, by decide⟩, [], rawLine_of (by decide) (by decide) (by decide), by simp, ?_, .nil,
    by simp, ?_⟩
  · exact .snoc (n := 20) (ds := b!"20") (.snoc (n := 2) (ds := b!"2") (.one (.dec 2 (by decide) (by decide)))
      (.dec 0 (by decide) (by decide))) (.dec 0 (by decide) (by decide))
  · exact delivers_map' c (blockBytes [b!"HTTP/9.9 +200"])
  · rintro v ⟨pre, k, post, h1, _⟩; simp at h1

/-- Streams that panic: a request line whose version ends in `é`; a header whose colon is followed by `é`, although the
connection fails before the head is complete. -/
example (c : Cfg) : let _ := asciiCase
    CutRequest c (trace (Wire.mk [.data b!"GET / HTTP/1.é\r\n"])) ∧
    CutRequest c (trace (Wire.mk [.data b!"GET / HTTP/1.1\r\na: b\r\nc:é\r\n", .fault .ssl])) ∧
    CutResponse c (trace (Wire.mk [.data b!"éééé\r\n"])) := by
  intro _
  have hn : ∀ e, ¬ Retried c e → ∀ l t', ¬ Delivers c [.fault e] (l ++ [13, 10]) t' := by
    intro e he l t' hd
    generalize hx : l ++ [13, 10] = x at hd
    cases hd with
    | nil => simp at hx
    | retry hr _ => exact he hr
  refine ⟨⟨b!"GET / HTTP/1.é", [], rawLine_of (by decide) (by decide) (by decide), delivers_map' c b!"GET / HTTP/1.é\r\n", .inl ?_⟩,
    ⟨b!"GET / HTTP/1.1", b!"a: b\r\nc:é\r\n".map .byte ++ [.fault .ssl], rawLine_of (by decide) (by decide) (by decide), ?_, .inr ⟨?_, ?_⟩⟩,
    ⟨b!"éééé", [], rawLine_of (by decide) (by decide) (by decide), delivers_map' c b!"éééé\r\n", .inl ?_⟩⟩
  · refine ⟨.Get, b!"/", b!"HTTP/1.é", ⟨b!"GET", b!" ", b!" ", b!"HTTP/1.é", rfl, ⟨by decide, by decide⟩, ⟨by decide, by decide⟩,
      ⟨by decide, by decide⟩, ⟨by decide, by decide⟩, ?_, ⟨by decide, .inl rfl⟩, by decide⟩,
      .inr (.inr (.inr ⟨49, 1, 195, [169], by decide +kernel, .dec 1 (by decide) (by decide), by decide⟩))⟩
    rw [methodName_bytes]; decide
  · exact delivers_map c b!"GET / HTTP/1.1\r\n" _
  · refine ⟨.Get, b!"/", 1, 1, b!"HTTP/1.1", ⟨b!"GET", b!" ", b!" ", b!"HTTP/1.1", rfl, ⟨by decide, by decide⟩, ⟨by decide, by decide⟩,
      ⟨by decide, by decide⟩, ⟨by decide, by decide⟩, ?_, ⟨by decide, .inl rfl⟩, by decide⟩,
      49, 49, [], by decide +kernel, .dec 1 (by decide) (by decide), .dec 1 (by decide) (by decide)⟩
    rw [methodName_bytes]; decide
  · refine ⟨[b!"a: b", b!"c:é"], [b!"a: b"], b!"c:é", [.fault .ssl], ?_, delivers_map c b!"a: b\r\nc:é\r\n" _, ?_, ?_, ?_,
      b!"c", 195, [169], rfl, by decide, by decide⟩
    · intro l hl
      simp only [List.mem_cons, List.not_mem_nil, or_false] at hl
      rcases hl with rfl | rfl <;> exact rawLine_of (by decide) (by decide) (by decide)
    · intro l t' _ hd
      exact absurd hd (hn .ssl (by simp [Retried]) l t')
    · apply folded_self
      intro l hl
      simp only [List.mem_cons, List.not_mem_nil, or_false] at hl
      rcases hl with rfl | rfl <;> (rw [← startsBlank_iff]; decide)
    · intro l hl
      simp only [List.mem_cons, List.not_mem_nil, or_false] at hl
      subst hl
      exact ⟨b!"a", b!"b", rfl, by decide⟩
  · exact ⟨b!"éééé", ⟨by decide, .inl rfl⟩, .inl ⟨[195, 169, 195, 169, 195], 169, [195, 169], rfl, rfl, by decide, by decide⟩⟩

end HttpIo
