import Verif.Spec.Grammar
import Verif.Props.Depends
import Verif.Props.Unicode

/-! C169: header lines whose names are not names. -/

namespace HttpIo
open Spec

section
variable [CaseMap]

/-- Dropping pairs whose names are not `name` does not change which value comes last with it. -/
theorem lastWith_filter (name : Bytes) (p : Bytes × Bytes → Bool) (hist : List (Bytes × Bytes))
    (hp : ∀ kv ∈ hist, CaseMap.lower kv.1 = name → p kv = true) (v : Bytes) :
    LastWith (fun k => CaseMap.lower k = name) hist v ↔ LastWith (fun k => CaseMap.lower k = name) (hist.filter p) v := by
  constructor
  · rintro ⟨pre, k, post, rfl, h1, h2⟩
    refine ⟨pre.filter p, k, post.filter p, ?_, h1, fun kv hkv => h2 kv (List.mem_filter.1 hkv).1⟩
    rw [List.filter_append, List.filter_cons_of_pos (hp (k, v) (by simp) h1)]
  · rintro ⟨pre, k, post, e, h1, h2⟩
    obtain ⟨a, b, e1, e2, e3⟩ := List.filter_eq_append_iff.1 e
    obtain ⟨a', b', f1, f2, f3, f4⟩ := List.filter_eq_cons_iff.1 e3
    refine ⟨a ++ a', k, b', by rw [e1, f1]; simp, h1, fun kv hkv hc => h2 kv ?_ hc⟩
    rw [← f4]
    exact List.mem_filter.2 ⟨hkv, hp kv (by rw [e1, f1]; simp [hkv]) hc⟩

/-- A byte that is a letter or `-` in lower case is a token character. -/
theorem tokenChar_of_lower (b : UInt8) : TokenChar (asciiLowerByte b) → TokenChar b := by
  unfold TokenChar
  have key : ∀ n, n < 256 → asciiLowerByte (UInt8.ofNat n) ∈ b!"!#$%&'*+-.^_`|~0123456789ABCDEFGHIJKLMNOPQRSTUVWXYZabcdefghijklmnopqrstuvwxyz" →
      UInt8.ofNat n ∈ b!"!#$%&'*+-.^_`|~0123456789ABCDEFGHIJKLMNOPQRSTUVWXYZabcdefghijklmnopqrstuvwxyz" := by
    decide +kernel
  have := key b.toNat b.toNat_lt
  rwa [UInt8.ofNat_toNat] at this

/-- ASCII text whose lower case is a token is a token. -/
theorem token_of_lower {k : Bytes} (ha : AsciiText k) (ht : Token (CaseMap.lower k)) : Token k := by
  rw [CaseMap.lower_ascii k ((isAscii_iff k).2 ha)] at ht
  refine ⟨fun e => ht.1 (by simp [e]), fun b hb => tokenChar_of_lower b (ht.2 _ (List.mem_map_of_mem hb))⟩

end

section
variable [CaseMap] {c : Cfg} {η σ ρ ε : Type} [LawfulReader σ] [ZeroReader σ] [LawfulWriter σ] [LawfulReader ρ] [ZeroReader ρ]

/-- Full statement (RFC 7230, sections 3.2 and 3.2.4): a request with a header line whose name is not a token, or has white
space before the colon, is answered with 400. What holds: such lines are accepted and ignored. A request with them is
answered as it is without them. `keep` says which lines are left; it drops none but those with bad names. -/
theorem C169_names_partial {P : σ → Prop} (hra : ReadsApart σ) (hrel : Reliable c P) (hkept : ∀ s n, P s → P (read s n).2)
    (h : Handler c η σ ρ ε) (ho : OnlyReads h) (hb : ByContent h) (errText : Err → Bytes) (s u : σ) (self : η) (hs : P s) (hu : P u)
    (m : HttpMethod) (target : Bytes) (line : Bytes) (major minor : Nat) (hist : List (Bytes × Bytes)) (t : List Ev)
    (keep : Bytes × Bytes → Bool) (hk : ∀ kv ∈ hist, keep kv = false → AsciiText kv.1 ∧ ¬ Token kv.1)
    (hl : RequestLine line m target major minor)
    (hd : HeadOf c (trace s) line hist t) (hd' : HeadOf c (trace u) line (hist.filter keep) t) :
    SameAnswer h errText s u self := by
  refine C86_framing hra hrel hkept h ho hb errText s u self hs hu m target line line major minor major minor hist _ t hl hl hd hd' ?_
  intro name hname v
  refine lastWith_filter name keep hist (fun kv hkv hc => ?_) v
  cases hkeep : keep kv with
  | true => rfl
  | false =>
    obtain ⟨h1, h2⟩ := hk kv hkv hkeep
    refine absurd (token_of_lower h1 ?_) h2
    rw [hc]
    rcases hname with rfl | rfl
    · rw [show utf8 "content-length" = b!"content-length" by decide +kernel]
      exact ⟨by decide, by unfold TokenChar; decide⟩
    · rw [show utf8 "transfer-encoding" = b!"transfer-encoding" by decide +kernel]
      exact ⟨by decide, by unfold TokenChar; decide⟩

omit [CaseMap] in
theorem sameText_ascii {a b : Bytes} (h : SameText a b) (hb : AsciiText b) : AsciiText a := by
  induction h with
  | nil => exact hb
  | cons h1 _ ih =>
    intro x hx
    rcases List.mem_cons.1 hx with rfl | hx
    · exact (sameLetter_ascii h1).2 (hb _ (by simp))
    · exact ih (fun y hy => hb y (by simp [hy])) x hx

/-- The same for all names, ASCII or not, if the case mapping is Unicode's. -/
theorem C169_unicode_partial {up low : Nat → Bytes} (hu : UnicodeCase up low)
    {P : σ → Prop} (hra : ReadsApart σ) (hrel : Reliable c P) (hkept : ∀ s n, P s → P (read s n).2)
    (h : Handler c η σ ρ ε) (ho : OnlyReads h) (hb : ByContent h) (errText : Err → Bytes) (s u : σ) (self : η) (hs : P s) (hu' : P u)
    (m : HttpMethod) (target : Bytes) (line : Bytes) (major minor : Nat) (hist : List (Bytes × Bytes)) (t : List Ev)
    (keep : Bytes × Bytes → Bool) (hk : ∀ kv ∈ hist, keep kv = false → ¬ Token kv.1)
    (hl : RequestLine line m target major minor)
    (hd : HeadOf c (trace s) line hist t) (hd' : HeadOf c (trace u) line (hist.filter keep) t) :
    SameAnswer h errText s u self := by
  refine C86_framing hra hrel hkept h ho hb errText s u self hs hu' m target line line major minor major minor hist _ t hl hl hd hd' ?_
  intro name hname v
  refine lastWith_filter name keep hist (fun kv hkv hc => ?_) v
  cases hkeep : keep kv with
  | true => rfl
  | false =>
    have hn : AsciiText name ∧ CaseMap.lower name = name ∧ (107 : UInt8) ∉ name ∧ (75 : UInt8) ∉ name ∧ Token name := by
      rcases hname with rfl | rfl
      · rw [show utf8 "content-length" = b!"content-length" by decide +kernel]
        exact ⟨(isAscii_iff _).1 (by decide), by rw [CaseMap.lower_ascii _ (by decide)]; decide, by decide, by decide, by decide,
          by unfold TokenChar; decide⟩
      · rw [show utf8 "transfer-encoding" = b!"transfer-encoding" by decide +kernel]
        exact ⟨(isAscii_iff _).1 (by decide), by rw [CaseMap.lower_ascii _ (by decide)]; decide, by decide, by decide, by decide,
          by unfold TokenChar; decide⟩
    obtain ⟨n1, n2, n3, n4, n5⟩ := hn
    have hsp := (lower_spelled_iff hu (headOf_names hd kv hkv) n1).1 (by rw [hc, n2])
    have hsame := (lowerSpelling_plain ⟨n3, n4⟩).1 hsp
    refine absurd (token_of_lower (sameText_ascii hsame n1) ?_) (hk kv hkv hkeep)
    rw [hc]; exact n5

/-- The case of 3.2.4: white space between the name and the colon. The line has no effect, whatever its name and value. -/
theorem C169_blank_partial {P : σ → Prop} (hra : ReadsApart σ) (hrel : Reliable c P) (hkept : ∀ s n, P s → P (read s n).2)
    (h : Handler c η σ ρ ε) (ho : OnlyReads h) (hb : ByContent h) (errText : Err → Bytes) (s u : σ) (self : η) (hs : P s) (hu : P u)
    (m : HttpMethod) (target : Bytes) (line : Bytes) (major minor : Nat) (before after : List (Bytes × Bytes)) (t : List Ev)
    (name value : Bytes) (blank : UInt8) (ha : AsciiText name) (hbl : blank = 32 ∨ blank = 9)
    (hl : RequestLine line m target major minor)
    (hd : HeadOf c (trace s) line (before ++ (name ++ [blank], value) :: after) t)
    (hd' : HeadOf c (trace u) line (before ++ after) t) :
    SameAnswer h errText s u self := by
  refine C86_framing hra hrel hkept h ho hb errText s u self hs hu m target line line major minor major minor _ _ t hl hl hd hd' ?_
  intro nm hname v
  have hne : CaseMap.lower (name ++ [blank]) ≠ nm := by
    intro hc
    have ha' : AsciiText (name ++ [blank]) := by
      intro b hb
      rcases List.mem_append.1 hb with hb | hb
      · exact ha b hb
      · rw [List.mem_singleton.1 hb]; rcases hbl with rfl | rfl <;> decide
    have ht : Token (CaseMap.lower (name ++ [blank])) := by
      rw [hc]
      rcases hname with rfl | rfl
      · rw [show utf8 "content-length" = b!"content-length" by decide +kernel]
        exact ⟨by decide, by unfold TokenChar; decide⟩
      · rw [show utf8 "transfer-encoding" = b!"transfer-encoding" by decide +kernel]
        exact ⟨by decide, by unfold TokenChar; decide⟩
    have hb := (token_of_lower ha' ht).2 blank (by simp)
    unfold TokenChar at hb
    rcases hbl with rfl | rfl <;> exact absurd hb (by decide)
  constructor
  · rintro ⟨pre, k, post, e, h1, h2⟩
    rcases List.append_eq_append_iff.1 e with ⟨w, e1, e2⟩ | ⟨w, e1, e2⟩
    · cases w with
      | nil =>
        simp only [List.nil_append, List.cons.injEq, Prod.mk.injEq] at e2
        exact absurd (by rw [e2.1.1]; exact h1) hne
      | cons x w =>
        simp only [List.cons_append, List.cons.injEq] at e2
        exact ⟨before ++ w, k, post, by rw [e2.2]; simp, h1, h2⟩
    · cases w with
      | nil =>
        simp only [List.nil_append, List.cons.injEq, Prod.mk.injEq] at e2
        exact absurd (by rw [← e2.1.1]; exact h1) hne
      | cons x w =>
        simp only [List.cons_append, List.cons.injEq] at e2
        refine ⟨pre, k, w ++ after, by rw [e1, e2.1]; simp, h1, fun kv hkv => h2 kv ?_⟩
        rw [e2.2]
        rcases List.mem_append.1 hkv with hkv | hkv <;> simp [hkv]
  · rintro ⟨pre, k, post, e, h1, h2⟩
    rcases List.append_eq_append_iff.1 e with ⟨w, e1, e2⟩ | ⟨w, e1, e2⟩
    · exact ⟨before ++ (name ++ [blank], value) :: w, k, post, by rw [e2]; simp, h1, h2⟩
    · cases w with
      | nil =>
        simp only [List.nil_append] at e2
        exact ⟨before ++ [(name ++ [blank], value)], k, post, by rw [← e2]; simp, h1, h2⟩
      | cons x w =>
        simp only [List.cons_append, List.cons.injEq] at e2
        refine ⟨pre, k, w ++ (name ++ [blank], value) :: after, by rw [e1, e2.1]; simp, h1, fun kv hkv hc => ?_⟩
        rcases List.mem_append.1 hkv with hkv | hkv
        · exact h2 kv (by rw [e2.2]; simp [hkv]) hc
        · rcases List.mem_cons.1 hkv with rfl | hkv
          · exact hne hc
          · exact h2 kv (by rw [e2.2]; simp [hkv]) hc

end

/-- False: requests are served whose header names have a blank before the colon, are empty, or hold control characters; and
so are requests whose values hold a NUL or a lone carriage return. A body whose length has a blank before the colon is
taken to reach to the end of the connection, and one with a transfer coding written that way to have its length. -/
theorem C169_false (c : Cfg) : let _ := asciiCase
    let server := fileHandler c (Duplex Wire Sink) b!"/srv" fun _ => []
    let get (s : String) := (server.serveOne (fun _ => []) (.ok (requestConn (utf8 s))) sampleFs).2.1.map sent
    ¬ Token b!"Host " ∧ ¬ Token [] ∧ ¬ Token (utf8 "a\x01") ∧ ¬ FieldValue (utf8 "x\x00") ∧ ¬ FieldValue (utf8 "x\ry") ∧
    get "GET /a HTTP/1.1\r\nHost : x\r\n\r\n" = some (utf8 "HTTP/1.1 200 OK\r\n\r\nold") ∧
    get "GET /a HTTP/1.1\r\n: x\r\n\r\n" = some (utf8 "HTTP/1.1 200 OK\r\n\r\nold") ∧
    get "GET /a HTTP/1.1\r\na\x01: x\r\n\r\n" = some (utf8 "HTTP/1.1 200 OK\r\n\r\nold") ∧
    get "GET /a HTTP/1.1\r\na: x\x00\r\n\r\n" = some (utf8 "HTTP/1.1 200 OK\r\n\r\nold") ∧
    get "GET /a HTTP/1.1\r\na: x\ry\r\n\r\n" = some (utf8 "HTTP/1.1 200 OK\r\n\r\nold") ∧
    (match HttpRequest.deserialize c (Wire.mk [.data b!"PUT /a HTTP/1.1\r\nContent-Length : 3\r\n\r\nnew"]) with
      | (.ok r, _) => (match r.body with | .ReadTilClose _ => true | _ => false)
      | _ => false) = true ∧
    (match HttpRequest.deserialize c (Wire.mk [.data b!"PUT /a HTTP/1.1\r\nContent-Length: 3\r\nTransfer-Encoding : chunked\r\n\r\nnew"]) with
      | (.ok r, _) => (match r.body with | .Limited _ => true | _ => false)
      | _ => false) = true := by
  intro inst server get
  refine ⟨fun h => ?_, fun h => h.1 rfl, fun h => ?_, fun h => ?_, fun h => ?_, ?_⟩
  · have := h.2 32 (by decide)
    unfold TokenChar at this
    exact absurd this (by decide)
  · have := h.2 1 (by decide +kernel)
    unfold TokenChar at this
    exact absurd this (by decide)
  · have := h.1 0 (by decide +kernel)
    unfold TextChar VisChar at this
    exact absurd this (by decide)
  · have := h.1 13 (by decide +kernel)
    unfold TextChar VisChar at this
    exact absurd this (by decide)
  · refine ⟨?_, ?_, ?_, ?_, ?_, ?_, ?_⟩ <;> rcases c with ⟨_ | _⟩ <;> decide +kernel

/-- Witness for `C169_names_partial` and `C169_blank_partial`: a Host header with a blank before the colon. -/
example : let _ := asciiCase
    let s := requestConn (utf8 "GET / HTTP/1.1\r\nHost : a\r\n\r\nrest")
    let u := requestConn (utf8 "GET / HTTP/1.1\r\n\r\nrest")
    HeadOf ⟨true⟩ (trace s) b!"GET / HTTP/1.1" [(b!"Host ", b!"a")] (b!"rest".map Ev.byte) ∧
    HeadOf ⟨true⟩ (trace u) b!"GET / HTTP/1.1" [] (b!"rest".map Ev.byte) ∧
    SameAnswer (fileHandler ⟨true⟩ (Duplex Wire Sink) b!"/srv" fun _ => []) (fun _ => []) s u sampleFs ∧
    SameAnswer (fileHandler ⟨true⟩ (Duplex Wire Sink) b!"/srv" fun _ => []) (fun _ => []) s u sampleFs := by
  intro inst s u
  have hl : RawLine b!"GET / HTTP/1.1" := ⟨by decide, by unfold HasCrLf; decide, isText_ascii (by decide)⟩
  have hh : RawLine b!"Host : a" := ⟨by decide, by unfold HasCrLf; decide, isText_ascii (by decide)⟩
  have h1 : HeadOf ⟨true⟩ (trace u) b!"GET / HTTP/1.1" [] (b!"rest".map Ev.byte) := by
    refine ⟨[], hl, by simp, ?_, .nil, by simp, ?_⟩
    · have : trace u = (blockBytes [b!"GET / HTTP/1.1"]).map Ev.byte ++ b!"rest".map Ev.byte := by decide +kernel
      rw [this]; exact delivers_map _ _ _
    · rintro v ⟨pre, k, post, e, _⟩
      simp at e
  have h2 : HeadOf ⟨true⟩ (trace s) b!"GET / HTTP/1.1" [(b!"Host ", b!"a")] (b!"rest".map Ev.byte) := by
    refine ⟨[b!"Host : a"], hl, by simpa using hh, ?_, ?_, by simp, ?_⟩
    · have : trace s = (blockBytes [b!"GET / HTTP/1.1", b!"Host : a"]).map Ev.byte ++ b!"rest".map Ev.byte := by decide +kernel
      rw [this]; exact delivers_map _ _ _
    · exact Folded.line (first := b!"Host : a") (conts := []) (rest := []) (by simp) (by simp) .nil
    · rintro v ⟨pre, k, post, e, e2, _⟩
      have hk : (k, v) ∈ [(b!"Host ", b!"a")] := by rw [e]; simp
      simp only [List.mem_singleton, Prod.mk.injEq] at hk
      rw [hk.1] at e2
      exact absurd e2 (by decide +kernel)
  refine ⟨h2, h1, ?_, ?_⟩
  · refine C169_names_partial duplex_readsApart (duplex_reliable (sink_reliable ⟨true⟩)) (fun _ _ h => h) _
      (fileHandler_onlyReads b!"/srv" fun _ => []) (fileHandler_byContent _ _) (fun _ => []) s u sampleFs
      (by simp [s, requestConn]) (by simp [u, requestConn]) .Get b!"/" _ 1 1 [(b!"Host ", b!"a")] _ (fun _ => false) ?_ root_line h2 h1
    intro kv hkv _
    rw [List.mem_singleton.1 hkv]
    refine ⟨(isAscii_iff _).1 (by decide), fun h => ?_⟩
    have := h.2 32 (by decide)
    unfold TokenChar at this
    exact absurd this (by decide)
  · exact C169_blank_partial duplex_readsApart (duplex_reliable (sink_reliable ⟨true⟩)) (fun _ _ h => h) _
      (fileHandler_onlyReads b!"/srv" fun _ => []) (fileHandler_byContent _ _) (fun _ => []) s u sampleFs
      (by simp [s, requestConn]) (by simp [u, requestConn]) .Get b!"/" _ 1 1 [] [] _ b!"Host" b!"a" 32
      ((isAscii_iff _).1 (by decide)) (.inl rfl) root_line h2 h1

/-- Witness for `C169_unicode_partial`: the name of a header that says a length has a letter outside ASCII. -/
example : let _ := someUnicode
    let s := requestConn (utf8 "GET / HTTP/1.1\r\nContent-Lengthé: 5\r\n\r\nrest")
    let u := requestConn (utf8 "GET / HTTP/1.1\r\n\r\nrest")
    SameAnswer (fileHandler ⟨true⟩ (Duplex Wire Sink) b!"/srv" fun _ => []) (fun _ => []) s u sampleFs := by
  intro inst s u
  have hl : RawLine b!"GET / HTTP/1.1" := ⟨by decide, by unfold HasCrLf; decide, isText_ascii (by decide)⟩
  have hh : RawLine (b!"Content-Length" ++ [195, 169] ++ b!": 5") :=
    ⟨by decide, by unfold HasCrLf; decide, (validUtf8_iff _).1 (by decide +kernel)⟩
  have h1 : HeadOf ⟨true⟩ (trace u) b!"GET / HTTP/1.1" [] (b!"rest".map Ev.byte) := by
    refine ⟨[], hl, by simp, ?_, .nil, by simp, ?_⟩
    · have : trace u = (blockBytes [b!"GET / HTTP/1.1"]).map Ev.byte ++ b!"rest".map Ev.byte := by decide +kernel
      rw [this]; exact delivers_map _ _ _
    · rintro v ⟨pre, k, post, e, _⟩
      simp at e
  have h2 : HeadOf ⟨true⟩ (trace s) b!"GET / HTTP/1.1" [(b!"Content-Length" ++ [195, 169], b!"5")] (b!"rest".map Ev.byte) := by
    refine ⟨[b!"Content-Length" ++ [195, 169] ++ b!": 5"], hl, by simpa using hh, ?_, ?_, by simp, ?_⟩
    · have : trace s = (blockBytes [b!"GET / HTTP/1.1", b!"Content-Length" ++ [195, 169] ++ b!": 5"]).map Ev.byte ++
          b!"rest".map Ev.byte := by decide +kernel
      rw [this]; exact delivers_map _ _ _
    · exact Folded.line (first := b!"Content-Length" ++ [195, 169] ++ b!": 5") (conts := []) (rest := []) (by simp) (by simp) .nil
    · rintro v ⟨pre, k, post, e, e2, _⟩
      have hk : (k, v) ∈ [(b!"Content-Length" ++ [195, 169], b!"5")] := by rw [e]; simp
      simp only [List.mem_singleton, Prod.mk.injEq] at hk
      rw [hk.1] at e2
      exact absurd e2 (by decide +kernel)
  refine C169_unicode_partial someUnicode_ok duplex_readsApart (duplex_reliable (sink_reliable ⟨true⟩)) (fun _ _ h => h) _
    (fileHandler_onlyReads b!"/srv" fun _ => []) (fileHandler_byContent _ _) (fun _ => []) s u sampleFs
    (by simp [s, requestConn]) (by simp [u, requestConn]) .Get b!"/" _ 1 1 [(b!"Content-Length" ++ [195, 169], b!"5")] _
    (fun _ => false) ?_ root_line h2 h1
  intro kv hkv _ h
  rw [List.mem_singleton.1 hkv] at h
  have := h.2 195 (by decide)
  unfold TokenChar at this
  exact absurd this (by decide)

end HttpIo
