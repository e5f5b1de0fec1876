import Verif.Props.Accept
import Verif.Lemmas.Forward

/-! What a caller's texts can do to a message: header values (C16), names in collected sets (C13), the target (C90). -/

namespace HttpIo

open Spec Reader LawfulReader

section
variable [CaseMap] {c : Cfg} {σ : Type} [LawfulReader σ]

/-! ### C16 -/

/-- No header value that is read from a peer has a CR LF in it. -/
theorem C16_values (s s' : σ) (hs : HttpHeaders) (h : HttpHeaders.deserialize c s = (.ok hs, s')) :
    ∀ kv ∈ hs.entries, ¬ HasCrLf kv.2 := by
  obtain ⟨raw, hraw, hd⟩ := headers_inv h
  obtain ⟨logical, hf⟩ := folded_exists raw
  obtain ⟨s1, h1, _⟩ := deserialize_block hf hraw hd
  have htext := folded_isText hf hraw
  have hno := folded_noCrLf hf hraw
  rw [h] at h1
  cases hp : parseLines logical with
  | err e => rw [hp] at h1; simp [Res.map] at h1
  | panic => rw [hp] at h1; simp [Res.map] at h1
  | ok hds =>
    rw [hp] at h1
    simp only [Res.map, Prod.mk.injEq, Res.ok.injEq] at h1
    rw [h1.1, fromVec_entries]
    intro kv hkv
    rcases insertAll_mem hkv with h2 | h2
    · obtain ⟨hd, hhd, rfl⟩ := List.mem_map.1 h2
      obtain ⟨l, hl', k, v, ⟨rfl, hc⟩, rfl⟩ := parseLines_mem htext hp hd hhd
      exact fun hx => hno _ hl' (hasCrLf_append_right hx)
    · simp at h2

/-- A header with a proper name is read by the peer as it was added, and the others with it, exactly if its value has no
CR LF. -/
theorem C16_exactly (s : σ) (h : HttpHeaders) (k v : Bytes) (t' : List Ev) (hs : SortedNames h.entries)
    (hl : ∀ kv ∈ h.entries, CaseMap.lower kv.1 = kv.1) (hw : ∀ kv ∈ h.entries, SendableHeader kv)
    (hk : SendableHeader (CaseMap.lower k, [])) (hv : IsText v)
    (hd : Delivers c (trace s) (headerText (h.insert k v).entries ++ [13, 10]) t') :
    (HttpHeaders.deserialize c s).1 = .ok (h.insert k v) ↔ ¬ HasCrLf v := by
  constructor
  · intro ho
    rcases hx : HttpHeaders.deserialize c s with ⟨r, s'⟩
    rw [hx] at ho
    subst ho
    have hm : (CaseMap.lower k, v) ∈ (h.insert k v).entries := by
      have hg : (h.insert k v).get k = some v := by
        unfold HttpHeaders.get HttpHeaders.insert
        rw [mapGet_mapInsert, if_pos rfl]
      exact mapGet_mem hg
    exact C16_values s s' _ hx _ hm
  · intro hn
    obtain ⟨h1, h2, h3, h4, _⟩ := hk
    exact (C16_no_injection_partial c s h k v t' hs hl hw ⟨h1, h2, h3, h4, hv, hn⟩ hd).1

/-! ### C13 -/

omit [LawfulReader σ] in
/-- What lookups in a collected set give, whatever the names: the last value whose name is, letter by letter, the name asked
for in lower case. -/
theorem C13_lookup (l : List (Bytes × Bytes)) (name : Bytes) :
    (∀ v, (HttpHeaders.fromIter l).get name = some v ↔ LastWith (fun k => k = CaseMap.lower name) l v) ∧
    ((HttpHeaders.fromIter l).get name = none ↔ ∀ kv ∈ l, kv.1 ≠ CaseMap.lower name) := by
  unfold HttpHeaders.fromIter HttpHeaders.get
  exact ⟨fun v => mapGet_insertAll .., mapGet_insertAll_none ..⟩

/-! ### C90 -/

/-- A request with proper headers is read by the peer as it was built exactly if its target is not empty and has no blank
and no CR LF. -/
theorem C90_target_partial (s : σ) (m : HttpMethod) (target : Bytes) (headers : HttpHeaders) (t' : List Ev) (ht : IsText target)
    (hh : SendableHeaders headers.entries) (hlen : LengthOk headers.entries)
    (hd : Delivers c (trace s) (requestHead m target headers.entries) t') :
    (∃ r s', HttpRequest.deserialize c s = (.ok r, s') ∧ r.method = m ∧ r.uri = target ∧ r.version = ⟨1, 1⟩ ∧
      r.headers = headers ∧ trace s' = t') ↔ SendableTarget target := by
  constructor
  · rintro ⟨r, s', h, rfl, rfl, hv, _, _⟩
    obtain ⟨line, hist, ⟨v, ⟨tok, g1, g2, rest, h1, _, _, h2, _⟩, _⟩, ⟨raw, h3, _⟩, _⟩ := C69_request_sound c s s' r h
    refine ⟨h2.1, ht, fun hx => (h2.2 _ hx).1 rfl, fun hx => (h2.2 _ hx).2 rfl, fun hx => h3.2.1 ?_⟩
    rw [h1]
    exact hasCrLf_append_left (hasCrLf_append_left (hasCrLf_append_right hx))
  · intro hs
    obtain ⟨r, s', h1, h2, h3, h4, h5, _, _, h6⟩ := C18_roundtrip c s m target headers t' hs hh hlen hd
    exact ⟨r, s', h1, h2, h3, h4, h5, h6⟩

/-- … and so with what is really sent: a request made by `HttpRequest::new` with a target and given proper headers,
serialized and delivered, is read as it was built exactly if the target has no blank and no CR LF. (An empty target is
`/`.) -/
theorem C90_new_partial {τ : Type} [LawfulWriter τ] (c' : Cfg) (w : τ) (s : σ) (m : HttpMethod) (target : Bytes)
    (headers : HttpHeaders) (o : OutgoingRequest c' τ) (t' : List Ev) (hne : target ≠ []) (ht : IsText target)
    (hh : SendableHeaders headers.entries) (hlen : LengthOk headers.entries)
    (h : HttpRequest.serialize { HttpRequest.new c' m target with headers } (BufWriter.new c' w) = .ok o) (hw : sent w = [])
    (hd : Delivers c (trace s) (outgoingSent o) t') :
    (∃ r s', HttpRequest.deserialize c s = (.ok r, s') ∧ r.method = m ∧ r.uri = target ∧ r.version = ⟨1, 1⟩ ∧
      r.headers = headers ∧ trace s' = t') ↔ SendableTarget target := by
  have hu : (HttpRequest.new c' m target).uri = target := if_neg (by simpa using hne)
  rw [(C18_serialized { HttpRequest.new c' m target with headers } w rfl o h).1, hw, List.nil_append] at hd
  replace hd : Delivers c (trace s) (requestHead m (HttpRequest.new c' m target).uri headers.entries) t' := hd
  rw [hu] at hd
  exact C90_target_partial s m target headers t' ht hh hlen hd

/-- Witness: a target with a blank, without headers. -/
example : let _ := asciiCase
    (∃ o, HttpRequest.serialize { HttpRequest.new ⟨true⟩ .Get b!"/a b" with headers := ⟨[]⟩ }
      (BufWriter.new ⟨true⟩ (Sink.mk [] 0 [])) = .ok o ∧
      Delivers ⟨true⟩ (trace (SliceReader.mk b!"GET /a b HTTP/1.1\r\n\r\nx")) (outgoingSent o) (b!"x".map .byte)) ∧
    b!"/a b" ≠ [] ∧ IsText b!"/a b" ∧ ¬ SendableTarget b!"/a b" := by
  intro _
  refine ⟨?_, by decide, isText_ascii (by decide), fun h => h.2.2.1 (by decide)⟩
  have key : (match HttpRequest.serialize { HttpRequest.new ⟨true⟩ .Get b!"/a b" with headers := ⟨[]⟩ }
      (BufWriter.new ⟨true⟩ (Sink.mk [] 0 [])) with
      | .ok o => decide (outgoingSent o = b!"GET /a b HTTP/1.1\r\n\r\n")
      | .error _ => false) = true := by decide +kernel
  split at key
  · rename_i o heq
    simp only [decide_eq_true_eq] at key
    refine ⟨o, heq, ?_⟩
    rw [key]
    exact delivers_map ⟨true⟩ b!"GET /a b HTTP/1.1\r\n\r\n" (b!"x".map .byte)
  · cases key

end

/-- So what the target is can change the whole request: this `GET`, built with `HttpRequest::new` and no headers, is read as
one of another target with a header. -/
theorem C90_target_false (c : Cfg) : let _ := asciiCase
    let r := HttpRequest.new c .Get b!"/ HTTP/1.1\r\nCookie: a\r\nx:"
    requestHead r.method r.uri r.headers.entries = utf8 "GET / HTTP/1.1\r\nCookie: a\r\nx: HTTP/1.1\r\n\r\n" ∧
    ∃ r' s', HttpRequest.deserialize c (SliceReader.mk (requestHead r.method r.uri r.headers.entries)) = (.ok r', s') ∧
      r'.uri = b!"/" ∧ r'.headers.get b!"cookie" = some b!"a" := by
  intro inst r
  have h : ∀ b : Bool, let r := HttpRequest.new ⟨b⟩ .Get b!"/ HTTP/1.1\r\nCookie: a\r\nx:"
      requestHead r.method r.uri r.headers.entries = utf8 "GET / HTTP/1.1\r\nCookie: a\r\nx: HTTP/1.1\r\n\r\n" ∧
      (match HttpRequest.deserialize ⟨b⟩ (SliceReader.mk (requestHead r.method r.uri r.headers.entries)) with
      | (.ok r', _) => decide (r'.uri = b!"/" ∧ r'.headers.get b!"cookie" = some b!"a")
      | _ => false) = true := by decide +kernel
  have h := h c.std
  refine ⟨h.1, ?_⟩
  have h := h.2
  rcases h1 : HttpRequest.deserialize c (SliceReader.mk (requestHead r.method r.uri r.headers.entries)) with ⟨r' | e | _, s'⟩ <;>
    rw [h1] at h
  · simp only [decide_eq_true_eq] at h
    exact ⟨r', s', rfl, h⟩
  · simp at h
  · simp at h

/-- Witness for `C16_exactly`: both sides, with a value that has no CR LF and with one that has. -/
example : let _ := asciiCase
    let h : HttpHeaders := ⟨[(b!"accept", b!"*/*")]⟩
    (HttpHeaders.deserialize ⟨false⟩ (SliceReader.mk (headerText (h.insert b!"X" b!"a\rb").entries ++ [13, 10]))).1 = .ok (h.insert b!"X" b!"a\rb") ∧
    (HttpHeaders.deserialize ⟨false⟩ (SliceReader.mk (headerText (h.insert b!"X" b!"a\r\n b").entries ++ [13, 10]))).1 =
      .ok (h.insert b!"X" b!"a b") ∧
    SendableHeader (CaseMap.lower b!"X", []) := by
  intro inst h
  refine ⟨by decide +kernel, by decide +kernel, isText_ascii (by decide), by decide, by unfold HasCrLf; decide,
    by rw [← startsBlank_iff]; decide, isText_ascii (by decide), by unfold HasCrLf; decide⟩

/-- Witness for `C13_lookup`: a name with a capital letter cannot be found, unless it is there in lower case too. -/
example : let _ := asciiCase
    (HttpHeaders.fromIter [(b!"Host", b!"a")]).get b!"Host" = none ∧
    (HttpHeaders.fromIter [(b!"host", b!"b"), (b!"Host", b!"a")]).get b!"Host" = some b!"b" := by
  intro inst
  decide +kernel

/-- Witness for `C90_target_partial`. -/
example : let _ := asciiCase
    SendableTarget b!"/a?b" ∧ SendableHeaders [(b!"host", b!"a")] ∧ LengthOk [(b!"host", b!"a")] ∧
    Delivers ⟨true⟩ (trace (SliceReader.mk (requestHead .Get b!"/a?b" [(b!"host", b!"a")]))) (requestHead .Get b!"/a?b" [(b!"host", b!"a")]) [] := by
  intro inst
  refine ⟨⟨by decide, isText_ascii (by decide), by decide, by decide, by unfold HasCrLf; decide⟩,
    ⟨by unfold SortedNames; decide, by decide, ?_⟩, ?_, delivers_map' _ _⟩
  · intro kv hkv
    simp only [List.mem_singleton] at hkv
    subst hkv
    exact ⟨isText_ascii (by decide), by decide, by unfold HasCrLf; decide, by rw [← startsBlank_iff]; decide,
      isText_ascii (by decide), by unfold HasCrLf; decide⟩
  · intro v hv
    simp only [List.mem_singleton, Prod.mk.injEq] at hv
    exact absurd hv.1 (by decide)

end HttpIo
