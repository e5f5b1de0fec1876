import Verif.Lemmas.Headers
import Verif.Lemmas.Case
import Verif.Model.Message
import Verif.Model.WriterLaws

/-! C12-C17, C58: header sets. -/

namespace HttpIo
open Spec

/-! ### C12 -/

/-- Lookup after any history of insertions into an empty set: the value of the last insertion under a name that is
the same after lower-casing. -/
theorem C12_lookup [CaseMap] (hist : List (Bytes × Bytes)) (name v : Bytes) :
    (hist.foldl (fun h kv => h.insert kv.1 kv.2) HttpHeaders.new).get name = some v ↔
      LastWith (fun k => CaseMap.lower k = CaseMap.lower name) hist v := by
  unfold HttpHeaders.get
  rw [insert_fold, show HttpHeaders.new.entries = [] by rfl, mapGet_insertAll, lastWith_map_lower]

/-- ... and nothing iff no such insertion happened. -/
theorem C12_lookup_none [CaseMap] (hist : List (Bytes × Bytes)) (name : Bytes) :
    (hist.foldl (fun h kv => h.insert kv.1 kv.2) HttpHeaders.new).get name = none ↔
      ∀ kv ∈ hist, CaseMap.lower kv.1 ≠ CaseMap.lower name := by
  unfold HttpHeaders.get
  rw [insert_fold, show HttpHeaders.new.entries = [] by rfl, mapGet_insertAll_none, List.forall_mem_map]

/-- For ASCII names "the same" is "equal up to ASCII case". -/
theorem C12_lookup_ascii [CaseMap] (hist : List (Bytes × Bytes)) (name : Bytes)
    (hh : ∀ kv ∈ hist, AsciiText kv.1) (hn : AsciiText name) :
    (∀ v, (hist.foldl (fun h kv => h.insert kv.1 kv.2) HttpHeaders.new).get name = some v ↔
      LastWith (fun k => SameText k name) hist v) ∧
    ((hist.foldl (fun h kv => h.insert kv.1 kv.2) HttpHeaders.new).get name = none ↔
      ∀ kv ∈ hist, ¬ SameText kv.1 name) := by
  refine ⟨fun v => ?_, ?_⟩
  · rw [C12_lookup]
    exact lastWith_congr fun kv hkv => lower_eq_iff (hh kv hkv) hn
  · rw [C12_lookup_none]
    constructor
    · exact fun h kv hkv hs => h kv hkv ((lower_eq_iff (hh kv hkv) hn).2 hs)
    · exact fun h kv hkv hs => h kv hkv ((lower_eq_iff (hh kv hkv) hn).1 hs)

/-- One insertion into any set, however it was built: only the inserted name changes. -/
theorem C12_insert [CaseMap] (h : HttpHeaders) (k v name : Bytes) :
    (h.insert k v).get name = if CaseMap.lower name = CaseMap.lower k then some v else h.get name :=
  mapGet_mapInsert _ _ _ _

/-- Any history of insertions into any set: the last one under the name, or what was there before. -/
theorem C12_history [CaseMap] (h : HttpHeaders) (adds : List (Bytes × Bytes)) (name : Bytes) :
    let h' := adds.foldl (fun h kv => h.insert kv.1 kv.2) h
    (∀ v, LastWith (fun k => CaseMap.lower k = CaseMap.lower name) adds v → h'.get name = some v) ∧
    ((∀ kv ∈ adds, CaseMap.lower kv.1 ≠ CaseMap.lower name) → h'.get name = h.get name) := by
  have key : ∀ rev : List (Bytes × Bytes),
      (∀ v, LastWith (fun k => CaseMap.lower k = CaseMap.lower name) rev.reverse v →
        (rev.reverse.foldl (fun h kv => h.insert kv.1 kv.2) h).get name = some v) ∧
      ((∀ kv ∈ rev.reverse, CaseMap.lower kv.1 ≠ CaseMap.lower name) →
        (rev.reverse.foldl (fun h kv => h.insert kv.1 kv.2) h).get name = h.get name) := by
    intro rev
    induction rev with
    | nil =>
      refine ⟨?_, fun _ => rfl⟩
      rintro v ⟨pre, k, post, h, _⟩
      simp at h
    | cons kv rev ih =>
      rw [List.reverse_cons, List.foldl_append, List.foldl_cons, List.foldl_nil, C12_insert]
      constructor
      · intro v hv
        rw [lastWith_snoc] at hv
        rcases hv with ⟨h1, h2⟩ | ⟨h1, h2⟩
        · rw [if_pos h1.symm, h2]
        · rw [if_neg (fun h => h1 h.symm)]; exact ih.1 v h2
      · intro hno
        have h1 := hno kv (by simp)
        rw [if_neg (fun h => h1 h.symm)]
        exact ih.2 fun kv' hkv' => hno kv' (by simp only [List.mem_append]; exact .inl hkv')
  have := key adds.reverse
  rwa [List.reverse_reverse] at this

/-- Headers added to a response are looked up alike, and nothing else of the response changes. -/
theorem C12_response [CaseMap] {c : Cfg} {ρ : Type} (r : HttpResponse c ρ) (adds : List (Bytes × Bytes)) (name : Bytes) :
    let r' := adds.foldl (fun r kv => r.addHeader kv.1 kv.2) r
    (∀ v, LastWith (fun k => CaseMap.lower k = CaseMap.lower name) adds v → r'.getHeader name = some v) ∧
    ((∀ kv ∈ adds, CaseMap.lower kv.1 ≠ CaseMap.lower name) → r'.getHeader name = r.getHeader name) ∧
    r'.status = r.status ∧ r'.version = r.version ∧ r'.body = r.body := by
  have key : ∀ (adds : List (Bytes × Bytes)) (r : HttpResponse c ρ),
      adds.foldl (fun r kv => r.addHeader kv.1 kv.2) r =
        { r with headers := adds.foldl (fun h kv => h.insert kv.1 kv.2) r.headers } := by
    intro adds
    induction adds with
    | nil => intro r; rfl
    | cons kv adds ih => intro r; rw [List.foldl_cons, List.foldl_cons, ih]; rfl
  dsimp only
  rw [key]
  exact ⟨(C12_history r.headers adds name).1, (C12_history r.headers adds name).2, rfl, rfl, rfl⟩

/-- Headers added to a request likewise. -/
theorem C12_request [CaseMap] {c : Cfg} {ρ : Type} (r : HttpRequest c ρ) (adds : List (Bytes × Bytes)) (name : Bytes) :
    let r' := adds.foldl (fun r kv => r.addHeader kv.1 kv.2) r
    (∀ v, LastWith (fun k => CaseMap.lower k = CaseMap.lower name) adds v → r'.headers.get name = some v) ∧
    ((∀ kv ∈ adds, CaseMap.lower kv.1 ≠ CaseMap.lower name) → r'.headers.get name = r.headers.get name) ∧
    r'.method = r.method ∧ r'.uri = r.uri ∧ r'.version = r.version ∧ r'.body = r.body := by
  have key : ∀ (adds : List (Bytes × Bytes)) (r : HttpRequest c ρ),
      adds.foldl (fun r kv => r.addHeader kv.1 kv.2) r =
        { r with headers := adds.foldl (fun h kv => h.insert kv.1 kv.2) r.headers } := by
    intro adds
    induction adds with
    | nil => intro r; rfl
    | cons kv adds ih => intro r; rw [List.foldl_cons, List.foldl_cons, ih]; rfl
  dsimp only
  rw [key]
  exact ⟨(C12_history r.headers adds name).1, (C12_history r.headers adds name).2, rfl, rfl, rfl, rfl⟩

example : let _ := asciiCase
    (((HttpResponse.fromString ⟨true⟩ .OK b!"hi").addHeader b!"A-b" b!"1").addHeader b!"a-B" b!"2").getHeader b!"A-B" =
      some b!"2" := by decide

example : let hist := [(b!"Host", b!"a"), (b!"Accept", b!"x"), (b!"hOST", b!"b")]
    (∀ kv ∈ hist, AsciiText kv.1) ∧ LastWith (fun k => SameText k b!"HOST") hist b!"b" := by
  have h1 : ∀ kv ∈ [(b!"Host", b!"a"), (b!"Accept", b!"x"), (b!"hOST", b!"b")], AsciiText kv.1 := by
    intro kv hkv; rw [← isAscii_iff]; revert kv; decide
  refine ⟨h1, [(b!"Host", b!"a"), (b!"Accept", b!"x")], b!"hOST", [], rfl, ?_, by simp⟩
  exact (sameText_iff_lower (h1 (b!"hOST", b!"b") (by simp)) (by rw [← isAscii_iff]; decide)).2 (by decide)

/-! ### C13 -/

/-- The property is false: a collected set does not lower-case its names, so a name given with an upper-case
letter is never found again, not even under the same spelling. -/
theorem C13_collect_false [CaseMap] :
    ¬ ∀ (l : List (Bytes × Bytes)) (name v : Bytes), LastWith (fun k => SameText k name) l v →
      (HttpHeaders.fromIter l).get name = some v := by
  intro h
  have h1 := h [(b!"Host", b!"a")] b!"Host" b!"a"
    ⟨[], b!"Host", [], rfl, .cons (.inl rfl) (.cons (.inl rfl) (.cons (.inl rfl) (.cons (.inl rfl) .nil))), by simp⟩
  unfold HttpHeaders.get HttpHeaders.fromIter at h1
  rw [CaseMap.lower_ascii _ (by decide)] at h1
  revert h1
  decide

/-- What holds instead: if every name in the list is already lower-case, the lookup returns the last value given
for the name, in any spelling. Missing: names with upper-case letters (false, see above). -/
theorem C13_collect_partial [CaseMap] (l : List (Bytes × Bytes)) (hl : ∀ kv ∈ l, CaseMap.lower kv.1 = kv.1)
    (name : Bytes) :
    (∀ v, (HttpHeaders.fromIter l).get name = some v ↔ LastWith (fun k => CaseMap.lower k = CaseMap.lower name) l v) ∧
    ((HttpHeaders.fromIter l).get name = none ↔ ∀ kv ∈ l, CaseMap.lower kv.1 ≠ CaseMap.lower name) := by
  have he : (HttpHeaders.fromIter l).entries = insertAll l [] := rfl
  unfold HttpHeaders.get
  rw [he]
  refine ⟨fun v => ?_, ?_⟩
  · rw [mapGet_insertAll]
    exact lastWith_congr fun kv hkv => by rw [hl kv hkv]
  · rw [mapGet_insertAll_none]
    constructor
    · exact fun h kv hkv => by rw [hl kv hkv]; exact h kv hkv
    · exact fun h kv hkv => by have := h kv hkv; rwa [hl kv hkv] at this

example : let _ := asciiCase
    (∀ kv ∈ [(b!"host", b!"a"), (b!"host", b!"b")], CaseMap.lower kv.1 = kv.1) ∧
    LastWith (fun k => CaseMap.lower k = CaseMap.lower b!"HOST") [(b!"host", b!"a"), (b!"host", b!"b")] b!"b" :=
  ⟨by decide, [(b!"host", b!"a")], b!"host", [], rfl, by decide, by simp⟩

/-! ### C14 -/

/-- What serializing a header set puts on the writer, whatever the writer accepts per call. -/
theorem C14_serialized {σ : Type} [LawfulWriter σ] (c : Cfg) (h : HttpHeaders) (w w' : σ)
    (hok : h.serialize c w = (.ok (), w')) : sent w' = sent w ++ headerText h.entries := by
  obtain ⟨_, p, _, h2, h3⟩ := writePieces_sent hok
  rw [h2, h3 rfl, pieces_flatten]

/-- A header set with sendable, lower-case headers, delivered as serialized and followed by a blank line, is
deserialized to the same set; exactly those bytes are consumed. `SortedNames` is the invariant of the map type
(see `C58_sorted`). -/
theorem C14_roundtrip [CaseMap] {σ : Type} [LawfulReader σ] (c : Cfg) (s : σ) (h : HttpHeaders) (t' : List Ev)
    (hs : SortedNames h.entries) (hl : ∀ kv ∈ h.entries, CaseMap.lower kv.1 = kv.1)
    (hw : ∀ kv ∈ h.entries, SendableHeader kv)
    (hd : Delivers c (trace s) (headerText h.entries ++ [13, 10]) t') :
    (HttpHeaders.deserialize c s).1 = .ok h ∧ trace (HttpHeaders.deserialize c s).2 = t' := by
  obtain ⟨s', h1, h2⟩ := deserialize_headerText hs hl hw hd
  rw [h1]; exact ⟨rfl, h2⟩

/-- Witness for the hypotheses: two headers, one with a non-ASCII value, cut into odd pieces. -/
example : let _ := asciiCase
    let h : HttpHeaders := ⟨[(b!"accept", b!"*/*"), (b!"host", b!"é: x")]⟩
    SortedNames h.entries ∧ (∀ kv ∈ h.entries, CaseMap.lower kv.1 = kv.1) ∧ (∀ kv ∈ h.entries, SendableHeader kv) ∧
    Delivers ⟨false⟩ (trace (Wire.mk [.data b!"accept", .data b!": */*\r\nhost: é: x\r", .data b!"\n\r\n", .data b!"body"]))
      (headerText h.entries ++ [13, 10]) (b!"body".map .byte) := by
  refine ⟨by unfold SortedNames; decide, by decide, ?_, ?_⟩
  · intro kv hkv
    simp only [List.mem_cons, List.not_mem_nil, or_false] at hkv
    rcases hkv with rfl | rfl
    · exact ⟨isText_ascii (by decide), by decide, by unfold HasCrLf; decide, by rw [← startsBlank_iff]; decide,
        isText_ascii (by decide), by unfold HasCrLf; decide⟩
    · exact ⟨isText_ascii (by decide), by decide, by unfold HasCrLf; decide, by rw [← startsBlank_iff]; decide,
        (validUtf8_iff _).1 (by decide), by unfold HasCrLf; decide⟩
  · exact delivers_map _ b!"accept: */*\r\nhost: é: x\r\n\r\n" (b!"body".map .byte)

/-! ### C15 -/

/-- Any block of physical lines whose unfolding is a list of `name: value` lines: the parsed set maps each name to
the value of its last occurrence, and names that do not occur to nothing. `hist` lists the logical lines in
order; `Folded` joins lines that begin with a blank to the line before them. -/
theorem C15_last_wins [CaseMap] {σ : Type} [LawfulReader σ] (c : Cfg) (s : σ) (raw : List Bytes)
    (hist : List (Bytes × Bytes)) (t' : List Ev)
    (hf : Folded raw (hist.map fun kv => kv.1 ++ [58, 32] ++ kv.2)) (hraw : ∀ l ∈ raw, RawLine l)
    (hc : ∀ kv ∈ hist, (58 : UInt8) ∉ kv.1) (h : Delivers c (trace s) (blockBytes raw) t') :
    ∃ hs, (HttpHeaders.deserialize c s).1 = .ok hs ∧ trace (HttpHeaders.deserialize c s).2 = t' ∧
      ∀ name, (∀ v, hs.get name = some v ↔ LastWith (fun k => CaseMap.lower k = CaseMap.lower name) hist v) ∧
        (hs.get name = none ↔ ∀ kv ∈ hist, CaseMap.lower kv.1 ≠ CaseMap.lower name) := by
  obtain ⟨s', h1, h2⟩ := deserialize_hist hf hraw hc h
  refine ⟨_, by rw [h1], by rw [h1]; exact h2, fun name => ⟨fun v => ?_, ?_⟩⟩
  · unfold HttpHeaders.get
    rw [mapGet_insertAll, lastWith_map_lower]
  · unfold HttpHeaders.get
    rw [mapGet_insertAll_none, List.forall_mem_map]

/-- Witness: three logical headers on four physical lines; the second is folded. -/
example : Folded [b!"A: 1", b!"B: 2", b!"\t3", b!"a: 4"]
      ([(b!"A", b!"1"), (b!"B", b!"2\t3"), (b!"a", b!"4")].map fun kv => kv.1 ++ [58, 32] ++ kv.2) ∧
    (∀ l ∈ [b!"A: 1", b!"B: 2", b!"\t3", b!"a: 4"], RawLine l) := by
  refine ⟨?_, ?_⟩
  · have nb : ∀ l ∈ [b!"A: 1", b!"B: 2", b!"a: 4"], ¬ StartsBlank l := by
      intro l hl ⟨b, r, h, hb⟩
      subst h
      simp at hl
      rcases hl with ⟨rfl, _⟩ | ⟨rfl, _⟩ | ⟨rfl, _⟩ <;> revert hb <;> decide
    have h3 : Folded [b!"a: 4"] [b!"a: 4"] := folded_self (by simpa using nb b!"a: 4" (by simp))
    have h2 : Folded [b!"B: 2", b!"\t3", b!"a: 4"] [b!"B: 2\t3", b!"a: 4"] :=
      Folded.line (first := b!"B: 2") (conts := [b!"\t3"]) (rest := [b!"a: 4"])
        (by intro l hl; simp at hl; subst hl; exact ⟨9, b!"3", rfl, .inr rfl⟩)
        (by intro l hl; simp at hl; subst hl; exact nb _ (by simp)) h3
    exact Folded.line (first := b!"A: 1") (conts := []) (rest := [b!"B: 2", b!"\t3", b!"a: 4"])
        (by simp) (by intro l hl; simp at hl; subst hl; exact nb _ (by simp)) h2
  · intro l hl
    refine ⟨?_, ?_, isText_ascii ?_⟩
    · revert l; decide
    · unfold HasCrLf; revert l; decide
    · revert l; decide

/-! ### C16 -/

/-- The property is false: a value may contain CR LF, and then what the peer parses has a header that was never
added (and the added one has a different value). -/
theorem C16_injection_false [CaseMap] :
    ¬ ∀ (h : HttpHeaders) (k v : Bytes) (c : Cfg) (s : SliceReader) (h' : HttpHeaders),
      (∀ kv ∈ h.entries, SendableHeader kv) → s.bytes = headerText (h.insert k v).entries ++ [13, 10] →
      (HttpHeaders.deserialize c s).1 = .ok h' →
      h'.entries.map (·.1) = (h.insert k v).entries.map (·.1) := by
  intro hall
  have hb : headerText (HttpHeaders.new.insert b!"x" b!"1\r\nevil: 2").entries ++ [13, 10] =
      b!"x: 1\r\nevil: 2\r\n\r\n" := by
    show headerText (mapInsert _ _ []) ++ _ = _
    rw [CaseMap.lower_ascii _ (by decide)]; decide
  have hsend : ∀ kv ∈ [(b!"evil", b!"2"), (b!"x", b!"1")], SendableHeader kv := by
    intro kv hkv
    simp only [List.mem_cons, List.not_mem_nil, or_false] at hkv
    rcases hkv with rfl | rfl
    · exact ⟨isText_ascii (by decide), by decide, by unfold HasCrLf; decide, by rw [← startsBlank_iff]; decide,
        isText_ascii (by decide), by unfold HasCrLf; decide⟩
    · exact ⟨isText_ascii (by decide), by decide, by unfold HasCrLf; decide, by rw [← startsBlank_iff]; decide,
        isText_ascii (by decide), by unfold HasCrLf; decide⟩
  have hlines : ∀ l ∈ ([(b!"x", b!"1"), (b!"evil", b!"2")].map fun kv => kv.1 ++ [58, 32] ++ kv.2),
      RawLine l ∧ ¬ StartsBlank l := by
    intro l hl
    obtain ⟨kv, hkv, rfl⟩ := List.mem_map.1 hl
    exact sendable_line (hsend kv (by simp at hkv ⊢; exact hkv.symm))
  obtain ⟨s', h1, _⟩ := deserialize_hist (c := ⟨true⟩) (s := (⟨b!"x: 1\r\nevil: 2\r\n\r\n"⟩ : SliceReader))
    (raw := [(b!"x", b!"1"), (b!"evil", b!"2")].map fun kv => kv.1 ++ [58, 32] ++ kv.2)
    (hist := [(b!"x", b!"1"), (b!"evil", b!"2")]) (t' := [])
    (folded_self fun l hl => (hlines l hl).2) (fun l hl => (hlines l hl).1) (by decide) (by
      rw [blockBytes_map]; exact delivers_map' _ _)
  have h2 := hall HttpHeaders.new b!"x" b!"1\r\nevil: 2" ⟨true⟩ ⟨b!"x: 1\r\nevil: 2\r\n\r\n"⟩ _
    (by simp [HttpHeaders.new]) hb.symm (by rw [h1])
  have h3 := congrArg List.length h2
  simp only [List.map_cons, List.map_nil] at h3
  rw [CaseMap.lower_ascii _ (by decide), CaseMap.lower_ascii _ (by decide)] at h3
  have h4 : (HttpHeaders.new.insert b!"x" b!"1\r\nevil: 2").entries.length = 1 := rfl
  rw [List.length_map, List.length_map, h4] at h3
  revert h3; decide

/-- What holds instead: adding a value without CR LF to a sendable header set changes nothing but that header for
the peer that parses the message. Missing: values with CR LF (false, see above). -/
theorem C16_no_injection_partial [CaseMap] {σ : Type} [LawfulReader σ] (c : Cfg) (s : σ) (h : HttpHeaders)
    (k v : Bytes) (t' : List Ev) (hs : SortedNames h.entries) (hl : ∀ kv ∈ h.entries, CaseMap.lower kv.1 = kv.1)
    (hw : ∀ kv ∈ h.entries, SendableHeader kv) (hkv : SendableHeader (CaseMap.lower k, v))
    (hd : Delivers c (trace s) (headerText (h.insert k v).entries ++ [13, 10]) t') :
    (HttpHeaders.deserialize c s).1 = .ok (h.insert k v) ∧ trace (HttpHeaders.deserialize c s).2 = t' := by
  refine C14_roundtrip c s (h.insert k v) t' (mapInsert_sorted hs) ?_ ?_ hd
  · intro kv hmem
    rcases mapInsert_mem hmem with rfl | hmem
    · exact CaseMap.lower_idem k
    · exact hl kv hmem
  · intro kv hmem
    rcases mapInsert_mem hmem with rfl | hmem
    · exact hkv
    · exact hw kv hmem

example : let _ := asciiCase
    SendableHeader (CaseMap.lower b!"X-Name", b!"any: thing\rbut CR LF") := by
  exact ⟨isText_ascii (by decide), by decide, by unfold HasCrLf; decide, by rw [← startsBlank_iff]; decide,
    isText_ascii (by decide), by unfold HasCrLf; decide⟩

/-! ### C17 -/

/-- A header line (any Rust string) is accepted iff it contains a `:` and the first one is followed by a space;
then the name is what precedes it and the value what follows the space. -/
theorem C17_line [CaseMap] (line : Bytes) (ht : IsText line) (hd : HttpHeader) :
    HttpHeader.deserialize line = .ok hd ↔ ∃ k v, HeaderLine line k v ∧ hd = ⟨CaseMap.lower k, v⟩ :=
  HttpHeader.deserialize_iff ((validUtf8_iff line).2 ht) hd

/-- A complete block yields a header set iff every logical line of it is a well-formed header line. -/
theorem C17_block [CaseMap] {σ : Type} [LawfulReader σ] (c : Cfg) (s : σ) (raw logical : List Bytes) (t' : List Ev)
    (hf : Folded raw logical) (hraw : ∀ l ∈ raw, RawLine l) (h : Delivers c (trace s) (blockBytes raw) t') :
    (∃ hs, (HttpHeaders.deserialize c s).1 = .ok hs) ↔ ∀ l ∈ logical, ∃ k v, HeaderLine l k v := by
  obtain ⟨s', h1, h2⟩ := deserialize_block hf hraw h
  rw [h1, ← parseLines_iff (folded_isText hf hraw)]
  constructor
  · rintro ⟨hs, h3⟩
    cases hp : parseLines logical with
    | ok r => exact ⟨r, rfl⟩
    | err e => rw [hp] at h3; simp [Res.map] at h3
    | panic => rw [hp] at h3; simp [Res.map] at h3
  · rintro ⟨r, hr⟩
    rw [hr]; exact ⟨_, rfl⟩

/-- `a:b` is a header line without the space, `a: b: c` is well formed. -/
example : (¬ ∃ k v, HeaderLine b!"a:b" k v) ∧ HeaderLine b!"a: b: c" b!"a" b!"b: c" := by
  refine ⟨?_, by decide, by decide⟩
  rintro ⟨k, v, h, hk⟩
  rcases k with _ | ⟨x, _ | ⟨y, k⟩⟩
  · simp at h
  · simp at h
  · simp at h
    rw [← h.2.1] at hk; simp at hk

/-! ### C58 -/

/-- Every way of building a header set keeps the names in strictly increasing byte order: insertion into any
ordered set, collecting pairs, parsing. -/
theorem C58_sorted [CaseMap] :
    SortedNames HttpHeaders.new.entries ∧
    (∀ (h : HttpHeaders) (k v : Bytes), SortedNames h.entries → SortedNames (h.insert k v).entries) ∧
    (∀ l : List (Bytes × Bytes), SortedNames (HttpHeaders.fromIter l).entries) ∧
    (∀ (σ : Type) [LawfulReader σ] (c : Cfg) (s : σ) (h : HttpHeaders),
      (HttpHeaders.deserialize c s).1 = .ok h → SortedNames h.entries) := by
  have hnil : SortedNames [] := by simp [SortedNames]
  refine ⟨hnil, fun h k v hs => mapInsert_sorted hs, fun l => insertAll_sorted hnil, ?_⟩
  intro σ _ c s h hok
  unfold HttpHeaders.deserialize at hok
  split at hok
  · split at hok
    · simp only [Res.ok.injEq] at hok
      rw [← hok, fromVec_entries]; exact insertAll_sorted hnil
    · simp at hok
    · simp at hok

/-- Serialization writes one line per header, in the order of the set. -/
theorem C58_lines {σ : Type} [LawfulWriter σ] (c : Cfg) (h : HttpHeaders) (w w' : σ)
    (hok : h.serialize c w = (.ok (), w')) :
    sent w' = sent w ++ h.entries.flatMap fun kv => kv.1 ++ [58, 32] ++ kv.2 ++ [13, 10] :=
  C14_serialized c h w w' hok

/-- Two insertion histories that agree on the last value of every name give the same set, so the same bytes. -/
theorem C58_deterministic [CaseMap] (h1 h2 : List (Bytes × Bytes))
    (h : ∀ name v, LastWith (fun k => CaseMap.lower k = name) h1 v ↔ LastWith (fun k => CaseMap.lower k = name) h2 v) :
    h1.foldl (fun h kv => h.insert kv.1 kv.2) HttpHeaders.new =
      h2.foldl (fun h kv => h.insert kv.1 kv.2) HttpHeaders.new := by
  have key : ∀ a b : HttpHeaders, a.entries = b.entries → a = b := by
    intro a b he; cases a; cases b; simp only at he; rw [he]
  apply key
  rw [insert_fold, insert_fold, show HttpHeaders.new.entries = [] by rfl]
  apply sorted_ext (insertAll_sorted (by simp [SortedNames])) (insertAll_sorted (by simp [SortedNames]))
  intro k
  apply Option.ext
  intro v
  rw [mapGet_insertAll, mapGet_insertAll, lastWith_map_lower, lastWith_map_lower]
  exact h k v

/-- Two different orders of insertion with the same contents. -/
example : let _ := asciiCase
    [(b!"B", b!"0"), (b!"a", b!"1"), (b!"b", b!"2")].foldl (fun h kv => h.insert kv.1 kv.2) HttpHeaders.new =
    [(b!"b", b!"2"), (b!"A", b!"1")].foldl (fun h kv => h.insert kv.1 kv.2) HttpHeaders.new := by decide

end HttpIo
