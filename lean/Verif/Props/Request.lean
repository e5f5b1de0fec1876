import Verif.Model.Client
import Verif.Model.Socket
import Verif.Spec.Url
import Verif.Spec.Io
import Verif.Props.Headers
import Verif.Props.Message
import Verif.Lemmas.Outgoing

/-! Properties C37-C41: building requests. -/

namespace HttpIo
open Spec

theorem utf8_http : utf8 "http" = b!"http" := by decide +kernel
theorem utf8_https : utf8 "https" = b!"https" := by decide +kernel

section
variable [CaseMap]

theorem lower_const (s : Bytes) (h : isAscii s = true := by decide) : CaseMap.lower s = s.map asciiLowerByte :=
  CaseMap.lower_ascii s h

omit [CaseMap] in
theorem sameText_refl (s : Bytes) : SameText s s := by
  induction s with
  | nil => exact .nil
  | cons b s ih => exact .cons (.inl rfl) ih

theorem sameText_lower {u : Bytes} (hu : AsciiText u) (v : Bytes) (hv : isAscii v = true)
    (hl : v.map asciiLowerByte = v) : SameText u v ↔ CaseMap.lower u = v := by
  rw [← lower_eq_iff hu ((isAscii_iff v).1 hv), CaseMap.lower_ascii v hv, hl]

theorem Scheme.fromStr_cases (s : Bytes) :
    (CaseMap.lower s = b!"http" ∧ Scheme.fromStr s = .ok .Http) ∨
    (CaseMap.lower s = b!"https" ∧ Scheme.fromStr s = .ok .Https) ∨
    (CaseMap.lower s ≠ b!"http" ∧ CaseMap.lower s ≠ b!"https" ∧
      ∃ x, Scheme.fromStr s = .ok x ∧ x ≠ .Http ∧ x ≠ .Https) := by
  unfold Scheme.fromStr
  dsimp only
  by_cases h1 : CaseMap.lower s = b!"http"
  · exact .inl ⟨h1, by rw [if_pos h1]⟩
  · by_cases h2 : CaseMap.lower s = b!"https"
    · exact .inr (.inl ⟨h2, by rw [if_neg h1, if_pos h2]⟩)
    · refine .inr (.inr ⟨h1, h2, _, rfl, ?_⟩)
      rw [if_neg h1, if_neg h2]
      by_cases h3 : CaseMap.lower s = b!"file"
      · rw [if_pos h3]; simp
      · rw [if_neg h3]; simp

/-- An http(s) URL with a host converts. -/
theorem HttpUrl.tryFrom_ok {u : Url} {h : Bytes} (ha : AsciiText u.scheme) (hs : PlainHttp u ∨ SecureHttp u)
    (hh : u.host = some h) :
    ∃ s, HttpUrl.tryFrom u = .ok ⟨u, s, h⟩ ∧ (s = .Http ∧ PlainHttp u ∨ s = .Https ∧ SecureHttp u) := by
  unfold PlainHttp SecureHttp at *
  rw [utf8_http, utf8_https] at *
  rw [sameText_lower ha b!"http" (by decide) (by decide), sameText_lower ha b!"https" (by decide) (by decide)] at *
  unfold HttpUrl.tryFrom
  rcases Scheme.fromStr_cases u.scheme with ⟨h1, h2⟩ | ⟨h1, h2⟩ | ⟨h1, h2, _⟩
  · refine ⟨.Http, by rw [h2, hh]; rfl, .inl ⟨rfl, h1⟩⟩
  · refine ⟨.Https, by rw [h2, hh]; rfl, .inr ⟨rfl, h1⟩⟩
  · rcases hs with h | h
    · exact absurd h h1
    · exact absurd h h2

/-- The converse. -/
theorem HttpUrl.tryFrom_inv {u : Url} {v : HttpUrl} (h : HttpUrl.tryFrom u = .ok v) :
    v.url = u ∧ u.host = some v.host ∧ (v.scheme = .Http ∧ CaseMap.lower u.scheme = b!"http" ∨
      v.scheme = .Https ∧ CaseMap.lower u.scheme = b!"https") := by
  unfold HttpUrl.tryFrom at h
  rcases Scheme.fromStr_cases u.scheme with ⟨h1, h2⟩ | ⟨h1, h2⟩ | ⟨_, _, x, h2, h3, h4⟩
  · rw [h2] at h
    dsimp only at h
    rw [if_neg (by simp)] at h
    cases hh : u.host with
    | none => rw [hh] at h; simp at h
    | some b => rw [hh] at h; simp only [Res.ok.injEq] at h; rw [← h]; exact ⟨rfl, rfl, .inl ⟨rfl, h1⟩⟩
  · rw [h2] at h
    dsimp only at h
    rw [if_neg (by simp)] at h
    cases hh : u.host with
    | none => rw [hh] at h; simp at h
    | some b => rw [hh] at h; simp only [Res.ok.injEq] at h; rw [← h]; exact ⟨rfl, rfl, .inr ⟨rfl, h1⟩⟩
  · rw [h2] at h
    dsimp only at h
    rw [if_pos ⟨h3, h4⟩] at h
    simp at h

theorem HttpRequestBuilder.new_ok (c : Cfg) (v : HttpUrl) (m : HttpMethod) :
    ∃ b, HttpRequestBuilder.new c (.ok v) m = .ok b ∧ b.request.method = m ∧
      b.request.uri = (if v.url.path = [] then b!"/" else v.url.path) ∧ b.request.version = ⟨1, 1⟩ ∧
      b.request.headers.entries = standardHeaders m v.host := by
  refine ⟨_, rfl, ?_, ?_, ?_, ?_⟩
  · cases m <;> rfl
  · cases m <;> simp [HttpRequest.new, HttpRequest.addHeader, HttpMethod.hasBody]
  · cases m <;> rfl
  · have l1 : CaseMap.lower b!"Host" = b!"host" := by rw [lower_const b!"Host"]; decide
    have l2 : CaseMap.lower b!"User-Agent" = b!"user-agent" := by rw [lower_const b!"User-Agent"]; decide
    have l3 : CaseMap.lower b!"Accept" = b!"accept" := by rw [lower_const b!"Accept"]; decide
    have l4 : CaseMap.lower b!"Transfer-Encoding" = b!"transfer-encoding" := by rw [lower_const b!"Transfer-Encoding"]; decide
    cases m <;>
      simp [HttpRequest.new, HttpRequest.addHeader, HttpMethod.hasBody, HttpHeaders.insert, l1, l2, l3, l4,
        HttpHeaders.new, mapInsert, standardHeaders, bytesLt]

/-! ### C37 -/

/-- Every http(s) URL with a host gives, for every method, a request with exactly these headers: host, user agent,
accept, and chunked transfer coding iff the method is DELETE, POST or PUT. -/
theorem C37_standard (c : Cfg) (u : Url) (host : Bytes) (m : HttpMethod) (ha : AsciiText u.scheme)
    (hs : PlainHttp u ∨ SecureHttp u) (hh : u.host = some host) :
    ∃ b, HttpRequestBuilder.new c (HttpUrl.tryFrom u) m = .ok b ∧ b.request.method = m ∧
      b.request.version = ⟨1, 1⟩ ∧ SortedNames b.request.headers.entries ∧
      ∀ k v, (k, v) ∈ b.request.headers.entries ↔
        (k = utf8 "host" ∧ v = host) ∨ (k = utf8 "user-agent" ∧ v = utf8 "http_io") ∨
        (k = utf8 "accept" ∧ v = utf8 "*/*") ∨
        (k = utf8 "transfer-encoding" ∧ v = utf8 "chunked" ∧ (m = .Delete ∨ m = .Post ∨ m = .Put)) := by
  obtain ⟨s, h1, _⟩ := HttpUrl.tryFrom_ok ha hs hh
  rw [h1]
  obtain ⟨b, h2, h3, h4, h5, h6⟩ := HttpRequestBuilder.new_ok c ⟨u, s, host⟩ m
  have e1 : utf8 "host" = b!"host" := by decide +kernel
  have e2 : utf8 "user-agent" = b!"user-agent" := by decide +kernel
  have e3 : utf8 "http_io" = b!"http_io" := by decide +kernel
  have e4 : utf8 "accept" = b!"accept" := by decide +kernel
  have e5 : utf8 "*/*" = b!"*/*" := by decide +kernel
  have e6 : utf8 "transfer-encoding" = b!"transfer-encoding" := by decide +kernel
  have e7 : utf8 "chunked" = b!"chunked" := by decide +kernel
  refine ⟨b, h2, h3, h5, ?_, fun k v => ?_⟩
  · rw [h6]
    unfold standardHeaders SortedNames
    split <;> simp only [List.pairwise_cons, List.mem_cons, List.not_mem_nil, or_false, forall_eq_or_imp, forall_eq,
      List.Pairwise.nil, and_true, false_imp_iff, implies_true] <;> decide
  · rw [h6, e1, e2, e3, e4, e5, e6, e7]
    unfold standardHeaders
    split
    · rename_i hm
      simp only [List.mem_cons, Prod.mk.injEq, List.not_mem_nil, or_false, hm, and_true]
      constructor
      · rintro (h | h | h | h)
        · exact .inr (.inr (.inl h))
        · exact .inl h
        · exact .inr (.inr (.inr h))
        · exact .inr (.inl h)
      · rintro (h | h | h | h)
        · exact .inr (.inl h)
        · exact .inr (.inr (.inr h))
        · exact .inl h
        · exact .inr (.inr (.inl h))
    · rename_i hm
      simp only [List.mem_cons, Prod.mk.injEq, List.not_mem_nil, or_false, hm, and_false]
      constructor
      · rintro (h | h | h)
        · exact .inr (.inr h)
        · exact .inl h
        · exact .inr (.inl h)
      · rintro (h | h | h)
        · exact .inr (.inl h)
        · exact .inr (.inr h)
        · exact .inl h

/-- Each named constructor makes a request with the method of its name and the headers that go with it. -/
theorem C37_constructors (c : Cfg) (u : Url) (host : Bytes) (ha : AsciiText u.scheme)
    (hs : PlainHttp u ∨ SecureHttp u) (hh : u.host = some host) :
    ∀ x ∈ [(HttpRequestBuilder.delete c (HttpUrl.tryFrom u), HttpMethod.Delete), (HttpRequestBuilder.get c (HttpUrl.tryFrom u), .Get),
        (HttpRequestBuilder.head c (HttpUrl.tryFrom u), .Head), (HttpRequestBuilder.options c (HttpUrl.tryFrom u), .Options),
        (HttpRequestBuilder.post c (HttpUrl.tryFrom u), .Post), (HttpRequestBuilder.put c (HttpUrl.tryFrom u), .Put)],
      ∃ b, x.1 = .ok b ∧ b.request.method = x.2 ∧ b.request.uri = requestTarget { u with query := none } ∧
        b.request.version = ⟨1, 1⟩ ∧ b.request.headers.entries = standardHeaders x.2 host := by
  obtain ⟨s, h1, _⟩ := HttpUrl.tryFrom_ok ha hs hh
  rw [h1]
  have key : ∀ m, ∃ b, HttpRequestBuilder.new c (.ok ⟨u, s, host⟩) m = .ok b ∧ b.request.method = m ∧
      b.request.uri = requestTarget { u with query := none } ∧ b.request.version = ⟨1, 1⟩ ∧
      b.request.headers.entries = standardHeaders m host := by
    intro m
    obtain ⟨b, h2, h3, h4, h5, h6⟩ := HttpRequestBuilder.new_ok c ⟨u, s, host⟩ m
    exact ⟨b, h2, h3, by rw [h4]; simp [requestTarget], h5, h6⟩
  intro x hx
  simp only [List.mem_cons, List.not_mem_nil, or_false] at hx
  rcases hx with rfl | rfl | rfl | rfl | rfl | rfl <;> exact key _

/-- Adding headers: each lookup gives the last added value of that name (up to case), or what was there before if the
name was not added; method, target and version stay. -/
theorem C37_added (c : Cfg) (b : HttpRequestBuilder c) (adds : List (Bytes × Bytes)) :
    let b' := adds.foldl (fun b kv => b.addHeader kv.1 kv.2) b
    b'.request.method = b.request.method ∧ b'.request.uri = b.request.uri ∧ b'.request.version = b.request.version ∧
    ∀ name, (∀ v, LastWith (fun k => CaseMap.lower k = CaseMap.lower name) adds v →
        b'.request.headers.get name = some v) ∧
      ((∀ kv ∈ adds, CaseMap.lower kv.1 ≠ CaseMap.lower name) →
        b'.request.headers.get name = b.request.headers.get name) := by
  dsimp only
  have key : ∀ (rev : List (Bytes × Bytes)),
      let b' := rev.reverse.foldl (fun b kv => b.addHeader kv.1 kv.2) b
      b'.request.method = b.request.method ∧ b'.request.uri = b.request.uri ∧ b'.request.version = b.request.version ∧
      ∀ name, (∀ v, LastWith (fun k => CaseMap.lower k = CaseMap.lower name) rev.reverse v →
          b'.request.headers.get name = some v) ∧
        ((∀ kv ∈ rev.reverse, CaseMap.lower kv.1 ≠ CaseMap.lower name) →
          b'.request.headers.get name = b.request.headers.get name) := by
    intro rev
    induction rev with
    | nil =>
      refine ⟨rfl, rfl, rfl, fun name => ⟨?_, fun _ => rfl⟩⟩
      rintro v ⟨pre, k, post, h, _⟩
      simp at h
    | cons kv rev ih =>
      obtain ⟨i1, i2, i3, i4⟩ := ih
      dsimp only
      rw [List.reverse_cons, List.foldl_append]
      refine ⟨i1, i2, i3, fun name => ?_⟩
      have hget : (([kv].foldl (fun b kv => b.addHeader kv.1 kv.2)
          (rev.reverse.foldl (fun b kv => b.addHeader kv.1 kv.2) b)).request.headers.get name) =
          if CaseMap.lower name = CaseMap.lower kv.1 then some kv.2
          else (rev.reverse.foldl (fun b kv => b.addHeader kv.1 kv.2) b).request.headers.get name :=
        C12_insert _ _ _ _
      rw [hget]
      constructor
      · intro v hv
        rw [lastWith_snoc] at hv
        rcases hv with ⟨h1, h2⟩ | ⟨h1, h2⟩
        · rw [if_pos h1.symm, h2]
        · rw [if_neg (fun h => h1 h.symm)]; exact (i4 name).1 v h2
      · intro hno
        have h1 := hno kv (by simp)
        rw [if_neg (fun h => h1 h.symm)]
        exact (i4 name).2 fun kv' hkv' => hno kv' (by simp only [List.mem_append]; exact .inl hkv')
  have := key adds.reverse
  rwa [List.reverse_reverse] at this

end

/-- `HTTPS://h:8443/p?q`, and a header added twice. -/
def sampleUrl : Url := ⟨b!"https", some b!"h", some 8443, b!"/p", some b!"q", none, [], none⟩

example : AsciiText sampleUrl.scheme ∧ SecureHttp sampleUrl ∧ sampleUrl.host = some b!"h" := by
  refine ⟨by rw [← isAscii_iff]; decide, ?_, rfl⟩
  unfold SecureHttp
  rw [utf8_https]
  exact sameText_refl _

example : let _ := asciiCase
    LastWith (fun k => CaseMap.lower k = CaseMap.lower b!"HOST") [(b!"host", b!"x"), (b!"X", b!"z"), (b!"Host", b!"y")]
      b!"y" :=
  ⟨[(b!"host", b!"x"), (b!"X", b!"z")], b!"Host", [], rfl, by decide, by simp⟩

/-! ### C38, C39 -/

section
variable [CaseMap]

/-- The query of a URL is not sent: there are http URLs for which the target in the request line is not the path with
the query. -/
theorem C38_query_false (c : Cfg) :
    ¬ ∀ (u : Url) (m : HttpMethod) (b : HttpRequestBuilder c), AsciiText u.scheme → PlainHttp u → u.host ≠ none →
      HttpRequestBuilder.new c (HttpUrl.tryFrom u) m = .ok b → b.request.uri = requestTarget u := by
  intro h
  have hp : PlainHttp ⟨b!"http", some b!"h", none, b!"/p", some b!"q", none, [], none⟩ := by
    unfold PlainHttp; rw [utf8_http]; exact sameText_refl _
  have ha : AsciiText b!"http" := by rw [← isAscii_iff]; decide
  obtain ⟨s, h1, _⟩ := HttpUrl.tryFrom_ok (u := ⟨b!"http", some b!"h", none, b!"/p", some b!"q", none, [], none⟩) ha (.inl hp) rfl
  obtain ⟨b, h2, _, h3, _⟩ := HttpRequestBuilder.new_ok c ⟨⟨b!"http", some b!"h", none, b!"/p", some b!"q", none, [], none⟩, s, b!"h"⟩ .Get
  have := h _ .Get b ha hp (by simp) (by rw [h1]; exact h2)
  rw [h3] at this
  simp [requestTarget] at this

/-- What is sent for every http(s) URL, on every transport: the path (`/` if it is empty), never the query; so the
target is right exactly when the URL has no query.
Missing for the full property: URLs with a query (for which it is false). -/
theorem C38_target_partial {σ : Type} [LawfulWriter σ] (c : Cfg) (u : Url) (m : HttpMethod)
    (b : HttpRequestBuilder c) (s : σ) (o : OutgoingRequest c σ)
    (hb : HttpRequestBuilder.new c (HttpUrl.tryFrom u) m = .ok b) (hs : b.send s = .ok o) :
    outgoingSent o = sent s ++ requestHead m (requestTarget { u with query := none }) b.request.headers.entries ∧
    (b.request.uri = requestTarget u ↔ u.query = none) := by
  cases ht : HttpUrl.tryFrom u with
  | err e => rw [ht] at hb; simp [HttpRequestBuilder.new] at hb
  | panic => rw [ht] at hb; simp [HttpRequestBuilder.new] at hb
  | ok v =>
    obtain ⟨h1, _⟩ := HttpUrl.tryFrom_inv ht
    obtain ⟨b', h2, h3, h4, h5, _⟩ := HttpRequestBuilder.new_ok c v m
    rw [ht, h2] at hb
    simp only [Res.ok.injEq] at hb
    subst hb
    have huri : b'.request.uri = requestTarget { u with query := none } := by
      rw [h4, h1]; simp [requestTarget]
    constructor
    · rw [(C18_serialized b'.request s h5 o hs).1, h3, huri]
    · rw [huri]
      unfold requestTarget
      cases u.query <;> simp

/-- The port of a URL is not sent in the host header. -/
theorem C39_port_false (c : Cfg) :
    ¬ ∀ (u : Url) (m : HttpMethod) (b : HttpRequestBuilder c), AsciiText u.scheme → PlainHttp u →
      HttpRequestBuilder.new c (HttpUrl.tryFrom u) m = .ok b →
      ∃ v, b.request.headers.get b!"host" = some v ∧ HostPort u v := by
  intro h
  have hp : PlainHttp ⟨b!"http", some b!"h", some 8080, b!"/", none, none, [], none⟩ := by
    unfold PlainHttp; rw [utf8_http]; exact sameText_refl _
  have ha : AsciiText b!"http" := by rw [← isAscii_iff]; decide
  obtain ⟨s, h1, _⟩ := HttpUrl.tryFrom_ok (u := ⟨b!"http", some b!"h", some 8080, b!"/", none, none, [], none⟩) ha (.inl hp) rfl
  obtain ⟨b, h2, _, _, _, h3⟩ := HttpRequestBuilder.new_ok c ⟨⟨b!"http", some b!"h", some 8080, b!"/", none, none, [], none⟩, s, b!"h"⟩ .Get
  obtain ⟨v, h4, h5⟩ := h _ .Get b ha hp (by rw [h1]; exact h2)
  unfold HttpHeaders.get at h4
  rw [h3, lower_const b!"host"] at h4
  have : v = b!"h" := by
    have : mapGet (List.map asciiLowerByte b!"host") (standardHeaders .Get b!"h") = some b!"h" := by decide
    rw [this] at h4; simpa using h4.symm
  have hv : v.length = 1 := by rw [this]; rfl
  cases h5 with
  | plain _ hd =>
    rcases hd 8080 rfl with ⟨_, h⟩ | ⟨_, h⟩ <;> omega
  | port h1 _ _ _ =>
    simp only [Option.some.injEq] at h1
    subst h1
    simp at hv

/-- The host header is the host, for every http(s) URL; which is right exactly when the port is absent or the default one.
Missing for the full property: explicit non-default ports (for which it is false). -/
theorem C39_host_partial (c : Cfg) (u : Url) (host : Bytes) (m : HttpMethod) (b : HttpRequestBuilder c)
    (hb : HttpRequestBuilder.new c (HttpUrl.tryFrom u) m = .ok b) (hh : u.host = some host) :
    b.request.headers.get b!"host" = some host ∧
    (HostPort u host ↔ ∀ p, u.port = some p → DefaultPort u p) := by
  refine ⟨?_, fun hp => ?_, fun hp => .plain hh hp⟩
  rotate_left
  · generalize hx : host = x at hp
    cases hp with
    | plain _ h => exact h
    | port h _ _ _ =>
      rw [hh, Option.some.injEq] at h
      have := congrArg List.length (h ▸ hx)
      simp at this
  cases ht : HttpUrl.tryFrom u with
  | err e => rw [ht] at hb; simp [HttpRequestBuilder.new] at hb
  | panic => rw [ht] at hb; simp [HttpRequestBuilder.new] at hb
  | ok v =>
    obtain ⟨_, h1, _⟩ := HttpUrl.tryFrom_inv ht
    obtain ⟨b', h2, _, _, _, h6⟩ := HttpRequestBuilder.new_ok c v m
    rw [ht, h2] at hb
    simp only [Res.ok.injEq] at hb
    subst hb
    have : v.host = host := by rw [hh] at h1; simpa using h1.symm
    unfold HttpHeaders.get
    rw [h6, this, lower_const b!"host"]
    unfold standardHeaders
    split <;> simp [mapGet] <;> decide

end

example : let _ := asciiCase
    (match HttpRequestBuilder.new ⟨true⟩ (HttpUrl.tryFrom sampleUrl) .Put with
      | .ok b => (b.send (Sink.mk [] 0 [.accept 3])).toOption.isSome
      | _ => false) = true := by
  decide +kernel

/-! ### C40 -/

section
variable [CaseMap]

/-- A URL is accepted iff its scheme is http or https (up to case) and it has a host; the error for another scheme; a
panic only for an http(s) URL without a host. -/
theorem C40_accepted (u : Url) (ha : AsciiText u.scheme) :
    ((∃ v, HttpUrl.tryFrom u = .ok v) ↔ (PlainHttp u ∨ SecureHttp u) ∧ ∃ h, u.host = some h) ∧
    (HttpUrl.tryFrom u = .err .url ↔ ¬ (PlainHttp u ∨ SecureHttp u)) ∧
    (HttpUrl.tryFrom u = .panic ↔ (PlainHttp u ∨ SecureHttp u) ∧ u.host = none) := by
  have hplain : PlainHttp u ↔ CaseMap.lower u.scheme = b!"http" := by
    unfold PlainHttp; rw [utf8_http]; exact sameText_lower ha _ (by decide) (by decide)
  have hsec : SecureHttp u ↔ CaseMap.lower u.scheme = b!"https" := by
    unfold SecureHttp; rw [utf8_https]; exact sameText_lower ha _ (by decide) (by decide)
  rw [hplain, hsec]
  unfold HttpUrl.tryFrom
  rcases Scheme.fromStr_cases u.scheme with ⟨h1, h2⟩ | ⟨h1, h2⟩ | ⟨h1, h2, x, h3, h4, h5⟩
  · rw [h2]
    dsimp only
    rw [if_neg (by simp)]
    cases u.host <;> simp [h1]
  · rw [h2]
    dsimp only
    rw [if_neg (by simp)]
    cases u.host <;> simp [h1]
  · rw [h3]
    dsimp only
    rw [if_pos ⟨h4, h5⟩]
    simp [h1, h2]

/-- Every builder function accepts exactly the same URLs, and turns any conversion error into `ParseError`. -/
theorem C40_builder (c : Cfg) (u : Url) (m : HttpMethod) (ha : AsciiText u.scheme) :
    ((∃ b, HttpRequestBuilder.new c (HttpUrl.tryFrom u) m = .ok b) ↔
      (PlainHttp u ∨ SecureHttp u) ∧ ∃ h, u.host = some h) ∧
    (HttpRequestBuilder.new c (HttpUrl.tryFrom u) m = .err .parse ↔ ¬ (PlainHttp u ∨ SecureHttp u)) := by
  obtain ⟨h1, h2, h3⟩ := C40_accepted u ha
  rw [← h1, ← h2]
  cases ht : HttpUrl.tryFrom u with
  | ok v =>
    obtain ⟨b, hb, _⟩ := HttpRequestBuilder.new_ok c v m
    rw [hb]; simp
  | panic => simp [HttpRequestBuilder.new]
  | err e =>
    unfold HttpRequestBuilder.new
    have : e = .url := by
      unfold HttpUrl.tryFrom at ht
      rcases Scheme.fromStr_cases u.scheme with ⟨_, h2⟩ | ⟨_, h2⟩ | ⟨_, _, x, h3, h4, h5⟩
      · rw [h2] at ht
        dsimp only at ht
        rw [if_neg (by simp)] at ht
        split at ht <;> simp at ht
      · rw [h2] at ht
        dsimp only at ht
        rw [if_neg (by simp)] at ht
        split at ht <;> simp at ht
      · rw [h3] at ht
        dsimp only at ht
        rw [if_pos ⟨h4, h5⟩] at ht
        simpa using ht.symm
    simp [this]

/-- The port of an accepted URL: the explicit one, else 80 or 443; asking for it never panics. -/
theorem C40_port (u : Url) (v : HttpUrl) (hl : LowerScheme u) (h : HttpUrl.tryFrom u = .ok v) :
    ∃ p, v.portOf = .ok p ∧ (∀ q, u.port = some q → p = q) ∧ (u.port = none → DefaultPort u p) ∧
      u.host = some v.host ∧ (v.scheme = .Http ↔ PlainHttp u) ∧ (v.scheme = .Https ↔ SecureHttp u) := by
  have ha : AsciiText u.scheme := fun b hb => (hl b hb).1
  have hid : CaseMap.lower u.scheme = u.scheme := by
    rw [CaseMap.lower_ascii _ ((isAscii_iff _).2 ha)]
    have : ∀ b ∈ u.scheme, asciiLowerByte b = b := by
      intro b hb
      have h1 := hl b hb
      have hcase : ∀ a : UInt8, asciiLowerByte a =
          if 65 ≤ a.toNat ∧ a.toNat ≤ 90 then UInt8.ofNat (a.toNat + 32) else a := by
        rw [UInt8.forall_iff_fin]; decide +kernel
      rw [hcase, if_neg h1.2]
    rw [List.map_congr_left (g := id) this, List.map_id]
  have hplain : PlainHttp u ↔ u.scheme = b!"http" := by
    unfold PlainHttp; rw [utf8_http, sameText_lower ha _ (by decide) (by decide), hid]
  have hsec : SecureHttp u ↔ u.scheme = b!"https" := by
    unfold SecureHttp; rw [utf8_https, sameText_lower ha _ (by decide) (by decide), hid]
  obtain ⟨h1, h2, h3⟩ := HttpUrl.tryFrom_inv h
  rw [hid] at h3
  unfold HttpUrl.portOf Url.portOrKnownDefault DefaultPort
  rw [hplain, hsec, h1]
  rcases h3 with ⟨h4, h5⟩ | ⟨h4, h5⟩
  · cases hp : u.port with
    | some q => exact ⟨q, rfl, by simp, by simp, h2, by simp [h4, h5], by rw [h4, h5]; decide⟩
    | none => exact ⟨80, by rw [h5]; rfl, by simp, by simp [h5], h2, by simp [h4, h5], by rw [h4, h5]; decide⟩
  · cases hp : u.port with
    | some q => exact ⟨q, rfl, by simp, by simp, h2, by rw [h4, h5]; decide, by simp [h4, h5]⟩
    | none => exact ⟨443, by rw [h5]; rfl, by simp, by simp [h5], h2, by rw [h4, h5]; decide, by simp [h4, h5]⟩

end

example : LowerScheme sampleUrl := by
  unfold LowerScheme sampleUrl; decide

example : let _ := asciiCase
    (∃ v, HttpUrl.tryFrom sampleUrl = .ok v) ∧ HttpUrl.tryFrom { sampleUrl with scheme := b!"ftp" } = .err .url ∧
    HttpUrl.tryFrom { sampleUrl with scheme := b!"hTTp", host := none } = .panic := by
  let _ := asciiCase
  exact ⟨⟨_, rfl⟩, rfl, rfl⟩

/-! ### C41 -/

section
variable {c : Cfg} {ρ σ : Type} [LawfulWriter σ]

/-- For GET, HEAD, OPTIONS and TRACE: once the head is sent, every write (also an empty one) fails with
`InvalidInput` (without `std`: the crate's `Error::Other`), every flush succeeds, and neither changes anything, in whatever order they are made. -/
theorem C41_no_body (r : HttpRequest c ρ) (s : σ) (o : OutgoingRequest c σ)
    (hm : r.method = .Get ∨ r.method = .Head ∨ r.method = .Options ∨ r.method = .Trace)
    (h : r.serialize (BufWriter.new c s) = .ok o) (cs : List WCall) :
    (attempt o cs).2 = o ∧
    ∀ (i : Nat) (hi : i < cs.length), ∃ res, (attempt o cs).1[i]? = some res ∧
      match cs[i] with
      | .write _ => res = .error (if c.std then .io .invalidInput else .other)
      | .flush => res = .ok 0 := by
  have hno : ∃ t, o = .NoBody t := by
    unfold HttpRequest.serialize at h
    have hb : r.method.hasBody = false := by
      rcases hm with h | h | h | h <;> rw [h] <;> rfl
    rcases hw : writePieces c (BufWriter.new c s) r.headPieces with ⟨_ | _, w⟩
    · rw [hw] at h; simp at h
    · rw [hw] at h
      simp only [hb] at h
      cases hi : w.intoInner with
      | error x => rw [hi] at h; simp at h
      | ok t => rw [hi] at h; simp only [Bool.false_eq_true, if_false, Except.ok.injEq] at h; exact ⟨t, h.symm⟩
  obtain ⟨t, rfl⟩ := hno
  clear h
  induction cs with
  | nil => exact ⟨rfl, fun i hi => absurd hi (by simp)⟩
  | cons cl cs ih =>
    have hstep : (attempt (OutgoingRequest.NoBody (c := c) t) (cl :: cs)) =
        ((match cl with | .write _ => .error (noBodyErr c) | .flush => .ok 0) ::
          (attempt (OutgoingRequest.NoBody (c := c) t) cs).1, (attempt (OutgoingRequest.NoBody (c := c) t) cs).2) := by
      cases cl <;> rfl
    rw [hstep]
    refine ⟨ih.1, fun i hi => ?_⟩
    cases i with
    | zero =>
      refine ⟨_, rfl, ?_⟩
      cases cl with
      | write buf => rfl
      | flush => rfl
    | succ i =>
      obtain ⟨res, h1, h2⟩ := ih.2 i (by simpa using hi)
      exact ⟨res, h1, h2⟩

end

example : let _ := asciiCase
    ((HttpRequest.new ⟨true⟩ .Options b!"/x").serialize
      (BufWriter.new ⟨true⟩ (Sink.mk [] 0 [.accept 2]))).toOption.isSome = true := by
  decide +kernel

end HttpIo
