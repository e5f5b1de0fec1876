import Verif.Lemmas.Grammar
import Verif.Props.Framing
import Verif.Props.Grammar
import Verif.Props.Request
import Verif.Props.Server

/-! What the crate sends, against the grammar of RFC 7230 (C77, C78). -/

namespace HttpIo
open Spec

/-! ### Heads as the grammar has them -/

theorem headerText_fields (entries : List (Bytes × Bytes)) :
    headerText entries ++ [13, 10] = blockBytes ((entries.map usualField).map Field.line) := by
  unfold headerText blockBytes usualField Field.line Field.after
  congr 1
  induction entries with
  | nil => rfl
  | cons kv es ih => simp only [List.flatMap_cons, List.map_cons, ih]; simp

theorem usualFields {entries : List (Bytes × Bytes)} (h : ∀ kv ∈ entries, Token kv.1 ∧ FieldValue kv.2) :
    (∀ f ∈ entries.map usualField, f.Conforms ∧ f.Usual) ∧
    (entries.map usualField).map (fun f => (f.name, f.value)) = entries := by
  refine ⟨?_, ?_⟩
  · intro f hf
    obtain ⟨kv, hkv, rfl⟩ := List.mem_map.1 hf
    exact ⟨⟨(h kv hkv).1, by simp [Blanks, usualField], (h kv hkv).2, by simp [Blanks, usualField]⟩, rfl, rfl⟩
  · induction entries with
    | nil => rfl
    | cons kv es ih => simpa [usualField] using ih fun kv hkv => h kv (by simp [hkv])

theorem token_method (m : HttpMethod) : Token (utf8 (methodName m)) := by
  have h : ∀ m : HttpMethod, utf8 (methodName m) ≠ [] ∧ ∀ b ∈ utf8 (methodName m),
      b ∈ b!"!#$%&'*+-.^_`|~0123456789ABCDEFGHIJKLMNOPQRSTUVWXYZabcdefghijklmnopqrstuvwxyz" := by
    intro m; cases m <;> decide +kernel
  exact ⟨(h m).1, (h m).2⟩

theorem requestHead_rfc (m : HttpMethod) {target : Bytes} {entries : List (Bytes × Bytes)}
    (ht : target ≠ [] ∧ ∀ b ∈ target, VisChar b) :
    ∃ line, RfcRequestLine line (utf8 (methodName m)) target 1 1 ∧
      requestHead m target entries = blockBytes (line :: (entries.map usualField).map Field.line) := by
  refine ⟨utf8 (methodName m) ++ [32] ++ target ++ [32] ++ utf8 "HTTP/1.1",
    ⟨_, rfl, token_method m, ht.1, ht.2, 49, 49, by decide +kernel, .dec 1 (by decide) (by decide), .dec 1 (by decide) (by decide)⟩, ?_⟩
  have := headerText_fields entries
  unfold requestHead
  rw [List.append_assoc _ (headerText entries), this]
  simp [blockBytes]

/-- The chunks the writer makes of the buffers it is given. -/
theorem rfcChunks_emitted (bufs : List Bytes) :
    ∃ chs : List RfcChunk, (∀ ch ∈ chs, ch.Conforms ∧ ch.ext = []) ∧ rfcData chs = bufs.flatten ∧
      chs.map (·.data) = bufs.filter (· ≠ []) ∧ (bufs.map emitted).flatten = (chs.map RfcChunk.bytes).flatten := by
  induction bufs with
  | nil => exact ⟨[], by simp, rfl, rfl, rfl⟩
  | cons b bufs ih =>
    obtain ⟨chs, h1, h2, h2', h3⟩ := ih
    by_cases h0 : b = []
    · subst h0
      exact ⟨chs, h1, by simpa using h2, by simpa using h2', by simpa [emitted] using h3⟩
    · refine ⟨⟨showHex b.length, [], b⟩ :: chs, ?_, ?_, ?_, ?_⟩
      · intro ch hch
        rcases List.mem_cons.1 hch with rfl | hch
        · exact ⟨⟨numeral_showHex _, h0, .inl rfl⟩, rfl⟩
        · exact h1 ch hch
      · simp only [rfcData, List.map_cons, List.flatten_cons] at h2 ⊢
        rw [h2]
      · simp [h0, h2']
      · simp [emitted, h0, h3, RfcChunk.bytes]

section
variable {c : Cfg} {ρ σ : Type} [LawfulWriter σ]

/-! ### C77 -/

/-- A request of version 1.1 whose target is visible ASCII and whose headers are tokens and field values is sent as the
grammar has it: the request line, one field per header in the usual spelling, and — for the methods that carry a body —
a chunked body without extensions or trailer, one chunk for each non-empty buffer written. -/
theorem C77_request (r : HttpRequest c ρ) (s s' : σ) (hv : r.version = ⟨1, 1⟩)
    (ht : r.uri ≠ [] ∧ ∀ b ∈ r.uri, VisChar b) (hh : ∀ kv ∈ r.headers.entries, Token kv.1 ∧ FieldValue kv.2)
    (o o' : OutgoingRequest c σ) (cs : List WCall) (h : r.serialize (BufWriter.new c s) = .ok o)
    (hp : perform o cs = (true, o')) (hc : o'.complete = .ok s') :
    ∃ (line : Bytes) (fs : List Field), RfcRequestLine line (utf8 (methodName r.method)) r.uri 1 1 ∧
      (∀ f ∈ fs, f.Conforms ∧ f.Usual) ∧ fs.map (fun f => (f.name, f.value)) = r.headers.entries ∧
      (Carries r.method → ∃ chs : List RfcChunk, (∀ ch ∈ chs, ch.Conforms ∧ ch.ext = []) ∧
        chs.map (·.data) = (written cs).filter (· ≠ []) ∧ rfcData chs = (written cs).flatten ∧
        wire s' = sent s ++ blockBytes (line :: fs.map Field.line) ++ rfcChunked chs b!"0" [] []) ∧
      (¬ Carries r.method → written cs = [] ∧ wire s' = sent s ++ blockBytes (line :: fs.map Field.line)) := by
  obtain ⟨e1, e2⟩ := C18_serialized r s hv o h
  obtain ⟨line, l1, l2⟩ := requestHead_rfc (entries := r.headers.entries) r.method ht
  obtain ⟨f1, f2⟩ := usualFields hh
  refine ⟨line, r.headers.entries.map usualField, l1, f1, f2, ?_, ?_⟩
  · intro hm
    obtain ⟨b, rfl⟩ := e2.2 hm
    obtain ⟨chs, k1, k2, k2', k3⟩ := rfcChunks_emitted (written cs)
    refine ⟨chs, k1, k2', k2, ?_⟩
    rw [perform_withBody] at hp
    simp only [Prod.mk.injEq] at hp
    obtain ⟨q1, q2⟩ := hp
    rw [← q2] at hc
    obtain ⟨_, p, _, p2, p3⟩ := OutgoingBody.perform_sent (Prod.ext q1 rfl : perform b cs = (true, (perform b cs).2))
    obtain ⟨c1, c2⟩ := OutgoingBody.complete_ok hc
    rw [c2, c1, p2, p3 rfl, k3, show sent b.socket = outgoingSent (.WithBody b) from rfl, e1, l2]
    simp [rfcChunked, rfcChunks, blockBytes]
  · intro hm
    cases o with
    | WithBody b => exact absurd (e2.1 ⟨b, rfl⟩) hm
    | NoBody t =>
      have := sent_request (by
        intro buf hb
        have := (perform_noBody (c := c) t cs).2.1 (by rw [hp])
        rw [this] at hb; simp at hb) hp hc
      obtain ⟨m1, m2, _⟩ := this
      obtain ⟨q1, q2⟩ := m2 t rfl
      refine ⟨q2, ?_⟩
      rw [m1, q1, show sent t = outgoingSent (.NoBody (c := c) t) from rfl, e1, l2]

section
variable [CaseMap]

omit [LawfulWriter σ] in
theorem builder_adds (b : HttpRequestBuilder c) (adds : List (Bytes × Bytes)) :
    let b' := adds.foldl (fun b kv => b.addHeader kv.1 kv.2) b
    b'.request.method = b.request.method ∧ b'.request.uri = b.request.uri ∧ b'.request.version = b.request.version ∧
    b'.request.headers.entries = insertAll (adds.map fun kv => (CaseMap.lower kv.1, kv.2)) b.request.headers.entries := by
  induction adds generalizing b with
  | nil => exact ⟨rfl, rfl, rfl, rfl⟩
  | cons kv adds ih =>
    obtain ⟨h1, h2, h3, h4⟩ := ih (b.addHeader kv.1 kv.2)
    exact ⟨h1, h2, h3, h4⟩

theorem token_ascii {w : Bytes} (h : Token w) : AsciiText w := by
  intro b hb
  have := (tokenChar_facts (h.2 b hb)).1
  exact this

theorem token_lower {w : Bytes} (h : Token w) : Token (CaseMap.lower w) := by
  rw [CaseMap.lower_ascii w ((isAscii_iff w).2 (token_ascii h))]
  refine ⟨by simpa using h.1, fun b hb => ?_⟩
  obtain ⟨a, ha, rfl⟩ := List.mem_map.1 hb
  have key : ∀ a ∈ b!"!#$%&'*+-.^_`|~0123456789ABCDEFGHIJKLMNOPQRSTUVWXYZabcdefghijklmnopqrstuvwxyz", asciiLowerByte a ∈
      b!"!#$%&'*+-.^_`|~0123456789ABCDEFGHIJKLMNOPQRSTUVWXYZabcdefghijklmnopqrstuvwxyz" := by decide +kernel
  exact key a (h.2 a ha)

theorem valuesOf_sorted {m : List (Bytes × Bytes)} (hs : SortedNames m) (hl : ∀ kv ∈ m, CaseMap.lower kv.1 = kv.1)
    (name : Bytes) : valuesOf name m = (mapGet name m).toList := by
  induction m with
  | nil => rfl
  | cons kv m ih =>
    obtain ⟨k, v⟩ := kv
    have hs' : SortedNames m := (List.pairwise_cons.1 hs).2
    have hk := (List.pairwise_cons.1 hs).1
    have hi := ih hs' fun kv hkv => hl kv (by simp [hkv])
    have hlk : CaseMap.lower k = k := hl (k, v) (by simp)
    unfold valuesOf at hi ⊢
    unfold mapGet
    by_cases hn : name = k
    · subst hn
      have : m.filter (fun kv => CaseMap.lower kv.1 = name) = [] := by
        rw [List.filter_eq_nil_iff]
        intro kv hkv he
        have h1 := hk kv hkv
        rw [hl kv (by simp [hkv])] at he
        simp only [decide_eq_true_eq] at he
        rw [he] at h1
        exact bytes_lt_irrefl _ h1
      simp [hlk, this]
    · have : ¬ k = name := fun h => hn h.symm
      simp [hlk, this, hn, hi]

omit [CaseMap] in
theorem mapGet_insertAll_not {hist m : List (Bytes × Bytes)} {k : Bytes} (h : ∀ kv ∈ hist, kv.1 ≠ k) :
    mapGet k (insertAll hist m) = mapGet k m := by
  induction hist generalizing m with
  | nil => rfl
  | cons kv hist ih =>
    have h1 := ih (m := mapInsert kv.1 kv.2 m) fun kv hkv => h kv (by simp [hkv])
    have h2 : k ≠ kv.1 := fun e => h kv (by simp) e.symm
    rw [mapGet_mapInsert, if_neg h2] at h1
    exact h1

omit [CaseMap] in
theorem mapGet_insertAll_some {hist m : List (Bytes × Bytes)} {k v : Bytes} (h : mapGet k m = some v) :
    ∃ w, mapGet k (insertAll hist m) = some w := by
  induction hist generalizing m v with
  | nil => exact ⟨v, h⟩
  | cons kv hist ih =>
    by_cases hk : k = kv.1
    · exact ih (m := mapInsert kv.1 kv.2 m) (v := kv.2) (by rw [mapGet_mapInsert, if_pos hk])
    · exact ih (m := mapInsert kv.1 kv.2 m) (v := v) (by rw [mapGet_mapInsert, if_neg hk, h])

/-- What a request built from a URL puts on the wire, whatever headers are added (tokens and field values) and whatever
body is written: a message of the grammar, of version 1.1, with no two fields of one name and exactly one `Host`; and
unless a framing header is added by hand, the framing RFC 7230 gives it is the one in which its body is sent. -/
theorem C77_client (u : Url) (host : Bytes) (m : HttpMethod) (hsch : AsciiText u.scheme)
    (hu : PlainHttp u ∨ SecureHttp u) (hh : u.host = some host) (hhost : FieldValue host)
    (hpath : ∀ b ∈ u.path, VisChar b) (adds : List (Bytes × Bytes)) (hadds : ∀ kv ∈ adds, Token kv.1 ∧ FieldValue kv.2)
    (b : HttpRequestBuilder c) (hb : HttpRequestBuilder.new c (HttpUrl.tryFrom u) m = .ok b) (s s' : σ)
    (o o' : OutgoingRequest c σ) (cs : List WCall)
    (h : (adds.foldl (fun b kv => b.addHeader kv.1 kv.2) b).send s = .ok o)
    (hp : perform o cs = (true, o')) (hc : o'.complete = .ok s') :
    ∃ (line : Bytes) (fs : List Field), RfcRequestLine line (utf8 (methodName m)) (requestTarget { u with query := none }) 1 1 ∧
      (∀ f ∈ fs, f.Conforms ∧ f.Usual) ∧ fs.Pairwise (fun f g => ¬ SameText f.name g.name) ∧
      (∃ v, valuesOf b!"host" (fs.map fun f => (f.name, f.value)) = [v] ∧
        ((∀ kv ∈ adds, ¬ SameText kv.1 b!"host") → v = host)) ∧
      (Carries m → (∃ chs : List RfcChunk, (∀ ch ∈ chs, ch.Conforms ∧ ch.ext = []) ∧ rfcData chs = (written cs).flatten ∧
          wire s' = sent s ++ blockBytes (line :: fs.map Field.line) ++ rfcChunked chs b!"0" [] []) ∧
        ((∀ kv ∈ adds, ¬ SameText kv.1 b!"transfer-encoding") →
          RfcRequest (valuesOf b!"transfer-encoding" (fs.map fun f => (f.name, f.value)))
            (valuesOf b!"content-length" (fs.map fun f => (f.name, f.value))) (some .chunked))) ∧
      (¬ Carries m → wire s' = sent s ++ blockBytes (line :: fs.map Field.line) ∧
        ((∀ kv ∈ adds, ¬ SameText kv.1 b!"transfer-encoding" ∧ ¬ SameText kv.1 b!"content-length") →
          RfcRequest (valuesOf b!"transfer-encoding" (fs.map fun f => (f.name, f.value)))
            (valuesOf b!"content-length" (fs.map fun f => (f.name, f.value))) (some (.limited 0)))) := by
  obtain ⟨sc, h1, _⟩ := HttpUrl.tryFrom_ok hsch hu hh
  rw [h1] at hb
  obtain ⟨b0, h2, b1, b2, b3, b4⟩ := HttpRequestBuilder.new_ok c ⟨u, sc, host⟩ m
  rw [h2] at hb
  simp only [Res.ok.injEq] at hb
  subst hb
  obtain ⟨a1, a2, a3, a4⟩ := builder_adds b0 adds
  generalize adds.foldl (fun b kv => b.addHeader kv.1 kv.2) b0 = bb at h a1 a2 a3 a4
  dsimp only at b2 b4
  rw [b1] at a1; rw [b2] at a2; rw [b3] at a3; rw [b4] at a4
  have htarget : bb.request.uri = requestTarget { u with query := none } := by
    rw [a2]; simp [requestTarget]
  have hvis : bb.request.uri ≠ [] ∧ ∀ b ∈ bb.request.uri, VisChar b := by
    rw [a2]
    by_cases hn : u.path = []
    · rw [if_pos hn]; exact ⟨by simp, vis_of (by decide)⟩
    · rw [if_neg hn]; exact ⟨hn, hpath⟩
  have hstd : ∀ kv ∈ standardHeaders m host, (Token kv.1 ∧ FieldValue kv.2) ∧ CaseMap.lower kv.1 = kv.1 := by
    have t1 : Token b!"accept" := token_of (by decide) (by decide)
    have t2 : Token b!"host" := token_of (by decide) (by decide)
    have t3 : Token b!"transfer-encoding" := token_of (by decide) (by decide)
    have t4 : Token b!"user-agent" := token_of (by decide) (by decide)
    have l1 : CaseMap.lower b!"accept" = b!"accept" := by rw [lower_const b!"accept"]; decide
    have l2 : CaseMap.lower b!"host" = b!"host" := by rw [lower_const b!"host"]; decide
    have l3 : CaseMap.lower b!"transfer-encoding" = b!"transfer-encoding" := by rw [lower_const b!"transfer-encoding"]; decide
    have l4 : CaseMap.lower b!"user-agent" = b!"user-agent" := by rw [lower_const b!"user-agent"]; decide
    have v1 : FieldValue b!"*/*" := fieldValue_of (by decide) (by decide) (by decide)
    have v3 : FieldValue b!"chunked" := fieldValue_of (by decide) (by decide) (by decide)
    have v4 : FieldValue b!"http_io" := fieldValue_of (by decide) (by decide) (by decide)
    intro kv hkv
    unfold standardHeaders at hkv
    split at hkv <;> simp only [List.mem_cons, List.not_mem_nil, or_false] at hkv
    · rcases hkv with rfl | rfl | rfl | rfl
      · exact ⟨⟨t1, v1⟩, l1⟩
      · exact ⟨⟨t2, hhost⟩, l2⟩
      · exact ⟨⟨t3, v3⟩, l3⟩
      · exact ⟨⟨t4, v4⟩, l4⟩
    · rcases hkv with rfl | rfl | rfl
      · exact ⟨⟨t1, v1⟩, l1⟩
      · exact ⟨⟨t2, hhost⟩, l2⟩
      · exact ⟨⟨t4, v4⟩, l4⟩
  have hsorted : SortedNames (standardHeaders m host) := by
    unfold standardHeaders SortedNames
    split <;> simp <;> decide
  have hsort : SortedNames bb.request.headers.entries := by rw [a4]; exact insertAll_sorted hsorted
  have hent : ∀ kv ∈ bb.request.headers.entries, (Token kv.1 ∧ FieldValue kv.2) ∧ CaseMap.lower kv.1 = kv.1 := by
    rw [a4]
    intro kv hkv
    rcases insertAll_mem hkv with hkv | hkv
    · obtain ⟨a, ha, rfl⟩ := List.mem_map.1 hkv
      exact ⟨⟨token_lower (hadds a ha).1, (hadds a ha).2⟩, CaseMap.lower_idem _⟩
    · exact hstd kv hkv
  have hval := valuesOf_sorted hsort fun kv hkv => (hent kv hkv).2
  have hnot : ∀ name : Bytes, AsciiText name → CaseMap.lower name = name → (∀ kv ∈ adds, ¬ SameText kv.1 name) →
      valuesOf name bb.request.headers.entries = (mapGet name (standardHeaders m host)).toList := by
    intro name hn hl hno
    rw [hval, a4, mapGet_insertAll_not]
    intro kv hkv he
    obtain ⟨a, ha, rfl⟩ := List.mem_map.1 hkv
    dsimp only at he
    refine hno a ha ((lower_eq_iff (token_ascii (hadds a ha).1) hn).1 ?_)
    rw [he, hl]
  have l2 : CaseMap.lower b!"host" = b!"host" := by rw [lower_const b!"host"]; decide
  have l3 : CaseMap.lower b!"transfer-encoding" = b!"transfer-encoding" := by rw [lower_const b!"transfer-encoding"]; decide
  have l4 : CaseMap.lower b!"content-length" = b!"content-length" := by rw [lower_const b!"content-length"]; decide
  have n2 : AsciiText b!"host" := (isAscii_iff _).1 (by decide)
  have n3 : AsciiText b!"transfer-encoding" := (isAscii_iff _).1 (by decide)
  have n4 : AsciiText b!"content-length" := (isAscii_iff _).1 (by decide)
  obtain ⟨line, fs, k1, k2, k3, k4, k5⟩ := C77_request bb.request s s' a3 hvis (fun kv hkv => (hent kv hkv).1) o o' cs h hp hc
  rw [a1] at k1 k4 k5
  rw [htarget] at k1
  refine ⟨line, fs, k1, k2, ?_, ?_, ?_, ?_⟩
  · rw [← k3] at hsort hent
    unfold SortedNames at hsort
    rw [List.pairwise_map] at hsort
    refine hsort.imp_of_mem ?_
    intro f g hf hg hlt hsame
    have e1 := hent _ (List.mem_map.2 ⟨f, hf, rfl⟩)
    have e2 := hent _ (List.mem_map.2 ⟨g, hg, rfl⟩)
    have := (lower_eq_iff (token_ascii e1.1.1) (token_ascii e2.1.1)).2 hsame
    rw [e1.2, e2.2] at this
    dsimp only at this hlt
    rw [this] at hlt
    exact bytes_lt_irrefl _ hlt
  · rw [k3]
    have hg : mapGet b!"host" (standardHeaders m host) = some host := by
      unfold standardHeaders
      split <;> simp [mapGet]
    obtain ⟨w, hw⟩ := mapGet_insertAll_some (hist := adds.map fun kv => (CaseMap.lower kv.1, kv.2)) hg
    refine ⟨w, by rw [hval, a4, hw]; rfl, fun hno => ?_⟩
    have := hnot _ n2 l2 hno
    rw [hval, a4, hw, hg] at this
    simpa using this
  · intro hm
    refine ⟨?_, ?_⟩
    · obtain ⟨chs, g1, _, g2, g3⟩ := k4 hm
      exact ⟨chs, g1, g2, g3⟩
    · intro hno
      have hg : mapGet b!"transfer-encoding" (standardHeaders m host) = some b!"chunked" := by
        unfold standardHeaders
        rw [if_pos (show m = .Delete ∨ m = .Post ∨ m = .Put from hm)]; simp [mapGet]
      have := hnot _ n3 l3 hno
      rw [hg] at this
      rw [k3, this]
      refine .chunked rfl ⟨[], b!"chunked", [], rfl, sameText_refl _, by simp [Blanks], .inl (by simp [Blanks])⟩
  · intro hm
    refine ⟨(k5 hm).2, fun hno => ?_⟩
    have g1 := hnot _ n3 l3 fun kv hkv => (hno kv hkv).1
    have g2 := hnot _ n4 l4 fun kv hkv => (hno kv hkv).2
    have e1 : mapGet b!"transfer-encoding" (standardHeaders m host) = none := by
      unfold standardHeaders
      rw [if_neg (show ¬ (m = .Delete ∨ m = .Post ∨ m = .Put) from hm)]; simp [mapGet]
    have e2 : mapGet b!"content-length" (standardHeaders m host) = none := by
      unfold standardHeaders
      rw [if_neg (show ¬ (m = .Delete ∨ m = .Post ∨ m = .Put) from hm)]; simp [mapGet]
    rw [e1] at g1; rw [e2] at g2
    rw [k3, g1, g2]
    exact .absent rfl rfl

end
end

/-- Witness for `C77_client`: a POST with an added header and a body in two writes, over a sink that takes one or a few
bytes at a time; and a GET. -/
example : let _ := asciiCase
    let u : Url := ⟨b!"http", some b!"h.example", none, b!"/up", some b!"q=1", none, [], none⟩
    let out := fun (m : HttpMethod) (cs : List WCall) =>
      match HttpRequestBuilder.new ⟨true⟩ (HttpUrl.tryFrom u) m with
      | .ok b =>
        match ([(b!"X-Note", b!"a b")].foldl (fun b kv => b.addHeader kv.1 kv.2) b).send (Sink.mk [] 0 [.accept 3, .accept 1]) with
        | .ok o =>
          match perform o cs with
          | (true, o') => match o'.complete with | .ok d => some (wire d) | _ => none
          | _ => none
        | _ => none
      | _ => none
    (Token b!"X-Note" ∧ FieldValue b!"a b" ∧ FieldValue b!"h.example" ∧ (∀ b ∈ u.path, VisChar b)) ∧
    out .Post [.write b!"hello", .write [], .write b!"0123456789abcdef"] =
      some b!"POST /up HTTP/1.1\r\naccept: */*\r\nhost: h.example\r\ntransfer-encoding: chunked\r\nuser-agent: http_io\r\nx-note: a b\r\n\r\n5\r\nhello\r\n10\r\n0123456789abcdef\r\n0\r\n\r\n" ∧
    out .Get [] = some b!"GET /up HTTP/1.1\r\naccept: */*\r\nhost: h.example\r\nuser-agent: http_io\r\nx-note: a b\r\n\r\n" := by
  intro _ u out
  refine ⟨⟨token_of (by decide) (by decide), fieldValue_of (by decide) (by decide) (by decide),
    fieldValue_of (by decide) (by decide) (by decide), vis_of (by decide)⟩, ?_, ?_⟩ <;> decide +kernel

/-! ### C78 -/

/-- The status line the server writes. -/
def sentStatusLine (major minor : Nat) (text : Bytes) : Bytes :=
  utf8 "HTTP/" ++ [UInt8.ofNat (48 + major), 46, UInt8.ofNat (48 + minor), 32] ++ text

theorem versionedHead_lines (major minor : Nat) (text : Bytes) (entries : List (Bytes × Bytes)) :
    versionedHead major minor text entries =
      blockBytes (sentStatusLine major minor text :: (entries.map usualField).map Field.line) := by
  have := headerText_fields entries
  unfold versionedHead
  rw [List.append_assoc _ (headerText entries), this]
  simp [blockBytes, sentStatusLine]

theorem named_line {st : HttpStatus} (h : st ∈ statusTable.map (·.1)) {major minor : Nat} (h1 : major < 10) (h2 : minor < 10) :
    ∃ reason, RfcStatusLine (sentStatusLine major minor st.display) major minor st.toCode.toNat reason := by
  have key : ∀ st ∈ statusTable.map (·.1), ∃ a b d, a < 10 ∧ b < 10 ∧ d < 10 ∧
      (st.display.take 4 = [UInt8.ofNat (48 + a), UInt8.ofNat (48 + b), UInt8.ofNat (48 + d), 32] ∧
      (∀ x ∈ st.display.drop 4, x = 9 ∨ x = 32 ∨ (33 ≤ x.toNat ∧ x.toNat ≤ 126) ∨ 128 ≤ x.toNat)) ∧
      st.toCode.toNat = (a * 10 + b) * 10 + d := by
    intro st hst
    refine ⟨st.toCode.toNat / 100, st.toCode.toNat / 10 % 10, st.toCode.toNat % 10, ?_⟩
    revert st; decide +kernel
  obtain ⟨a, b, d, ha, hb, hd, ⟨k1, k2⟩, k3⟩ := key st h
  refine ⟨st.display.drop 4, utf8 "HTTP/" ++ [UInt8.ofNat (48 + major), 46, UInt8.ofNat (48 + minor)],
    [UInt8.ofNat (48 + a), UInt8.ofNat (48 + b), UInt8.ofNat (48 + d)], ?_, ⟨_, _, ?_, .dec major h1 (by omega), .dec minor h2 (by omega)⟩, rfl, ?_, k2⟩
  · have := List.take_append_drop 4 st.display
    rw [k1] at this
    unfold sentStatusLine
    rw [← this]
    simp
  · simp
  · rw [k3]
    have e1 : DigitVal 10 (UInt8.ofNat (48 + a)) a := .dec a ha (by omega)
    have e2 : DigitVal 10 (UInt8.ofNat (48 + b)) b := .dec b hb (by omega)
    have e3 : DigitVal 10 (UInt8.ofNat (48 + d)) d := .dec d hd (by omega)
    exact ((Numeral.one e1).snoc e2).snoc e3

theorem unknown_line {n : UInt32} {major minor major' minor' code : Nat} {reason : Bytes} (h1 : major < 10) (h2 : minor < 10) :
    ¬ RfcStatusLine (sentStatusLine major minor (HttpStatus.display (.Unknown n))) major' minor' code reason := by
  rintro ⟨w, ds, he, _, _, _, _⟩
  have hc := congrArg (List.count 32) he
  have hd : ∀ d, d < 10 → UInt8.ofNat (48 + d) ≠ 32 := by decide
  have hn : List.count 32 (showDec n.toNat) = 0 := by
    apply List.count_eq_zero.2
    intro hm
    exact (visChar_facts ((numeral_vis (numeral_showDec n.toNat)).2 _ hm)).2.2.1 rfl
  have hu : List.count 32 (utf8 "HTTP/") = 0 := by decide +kernel
  have hl : List.count 32 (sentStatusLine major minor (HttpStatus.display (.Unknown n))) = 1 := by
    show List.count 32 (sentStatusLine major minor (showDec n.toNat)) = 1
    unfold sentStatusLine
    simp only [List.count_append, hn, hu, List.count_cons, List.count_nil]
    simp only [beq_iff_eq, if_neg (hd major h1), if_neg (hd minor h2)]
    decide
  rw [hl] at hc
  simp only [List.count_append, List.count_cons_self, List.count_nil] at hc
  omega

theorem first_line {l m x y : Bytes} (hl : (13 : UInt8) ∉ l) (hm : (13 : UInt8) ∉ m) (h : l ++ 13 :: x = m ++ 13 :: y) : l = m := by
  induction l generalizing m with
  | nil =>
    cases m with
    | nil => rfl
    | cons b m => simp at h; simp [h.1] at hm
  | cons a l ih =>
    cases m with
    | nil => simp at h; simp [h.1] at hl
    | cons b m =>
      simp only [List.cons_append, List.cons.injEq] at h
      rw [h.1, ih (fun hx => hl (by simp [hx])) (fun hx => hm (by simp [hx])) h.2]

theorem status_named (st : HttpStatus) : st ∈ statusTable.map (·.1) ∨ ∃ n, st = .Unknown n := by
  cases st with
  | Unknown n => exact .inr ⟨n, rfl⟩
  | _ => exact .inl (by decide)

theorem sent_status_line {st : HttpStatus} {major minor : Nat} (h1 : major < 10) (h2 : minor < 10) :
    (13 : UInt8) ∉ sentStatusLine major minor st.display := by
  have hs : (13 : UInt8) ∉ st.display := by
    rcases status_named st with h | ⟨n, rfl⟩
    · have : ∀ st ∈ statusTable.map (·.1), (13 : UInt8) ∉ st.display := by decide +kernel
      exact this st h
    · intro hm
      exact (visChar_facts ((numeral_vis (numeral_showDec n.toNat)).2 _ hm)).2.1 rfl
  have hd : ∀ d, d < 10 → 13 ≠ UInt8.ofNat (48 + d) := by decide
  have hu : (13 : UInt8) ∉ utf8 "HTTP/" := by decide +kernel
  unfold sentStatusLine
  simp only [List.mem_append, List.mem_cons, List.not_mem_nil, or_false, not_or]
  exact ⟨⟨hu, hd _ h1, by decide, hd _ h2, by decide⟩, hs⟩

/-- Whether a head is a status line of the grammar followed by lines. -/
theorem head_conforms {st : HttpStatus} {major minor : Nat} {entries : List (Bytes × Bytes)} {rest : Bytes}
    (h1 : major < 10) (h2 : minor < 10) :
    (∃ line major' minor' code reason tail, RfcStatusLine line major' minor' code reason ∧
      versionedHead major minor st.display entries ++ rest = line ++ [13, 10] ++ tail) ↔ st ∈ statusTable.map (·.1) := by
  rw [versionedHead_lines]
  constructor
  · rintro ⟨line, major', minor', code, reason, tail, hl, he⟩
    have hcr : (13 : UInt8) ∉ line := by
      obtain ⟨w, ds, rfl, k1, k2, k3, k4⟩ := hl
      obtain ⟨_, v2, _⟩ := rfcVersion_facts k1
      obtain ⟨_, n2⟩ := numeral_vis k3
      simp only [List.mem_append, List.mem_singleton, not_or]
      exact ⟨⟨⟨⟨fun hm => (visChar_facts (v2 _ hm)).2.1 rfl, by decide⟩, fun hm => (visChar_facts (n2 _ hm)).2.1 rfl⟩, by decide⟩,
        fun hm => textChar_no_cr (k4 _ hm) rfl⟩
    have := first_line (sent_status_line (st := st) h1 h2) hcr
      (x := 10 :: (((entries.map usualField).map Field.line).flatMap (· ++ [13, 10]) ++ [13, 10] ++ rest)) (y := 10 :: tail) (by
        simpa [blockBytes] using he)
    subst this
    rcases status_named st with h | ⟨n, rfl⟩
    · exact h
    · exact absurd hl (unknown_line h1 h2)
  · intro h
    obtain ⟨reason, hr⟩ := named_line h h1 h2
    exact ⟨_, _, _, _, _, ((entries.map usualField).map Field.line).flatMap (· ++ [13, 10]) ++ [13, 10] ++ rest, hr, by simp [blockBytes]⟩

section
variable [CaseMap] {c : Cfg} {η σ ρ ε : Type} [LawfulReader σ] [ZeroReader σ] [LawfulReader ρ] [ZeroReader ρ] [LawfulWriter σ]

/-- What a served connection was sent. -/
theorem served_sent (hra : ReadsApart σ) (h : Handler c η σ ρ ε) (ho : OnlyReads h) (errText : Err → Bytes) (s d : σ)
    (self : η) (r : ServerResponse c ρ)
    (hi : (h.serveOneInner errText s self).1 = .ok r ∨ (h.serveOneInner errText s self).1 = .err r)
    (hv1 : r.version.major < 10) (hv2 : r.version.minor < 10)
    (hok : (h.serveOne errText (.ok s) self).1 = .ok ()) (hd : (h.serveOne errText (.ok s) self).2.1 = some d) :
    ∃ bs t', Delivers c (trace r.body) bs t' ∧ Ended c t' ∧ sent d = sent s ++
      versionedHead r.version.major r.version.minor r.status.display r.headers.entries ++ bs := by
  have hq := C52_handler_quiet hra h ho errText s self
  obtain ⟨d', e1, e2⟩ := C52_written h errText s self
  rw [hd] at e1
  simp only [Option.some.injEq] at e1
  subst e1
  rcases e2 with ⟨e3, _⟩ | ⟨r', e3, e4⟩
  · rw [hok] at e3; simp at e3
  · have : r' = r := by
      rcases hi with hi | hi <;> rw [hi] at e3 <;> simp at e3 <;> exact e3.symm
    subst this
    rcases e4 hv1 hv2 with ⟨_, bs, t', g1, g2, g3⟩ | ⟨e, g1, _⟩
    · rw [hq] at g3; exact ⟨bs, t', g1, g2, g3⟩
    · rw [hok] at g1; simp at g1

/-- The response the server sends for a handler's (or its own) response `r`, whose headers are tokens and field values,
begins with a status line of the grammar if and only if `r`'s status is one of the named ones. Then it is: that status
line with `r`'s version and code, one field per header in the usual spelling, an empty line, and the bytes of `r`'s body.
Missing for the full property: statuses without a name (`HttpStatus::Unknown`), which are written without the space that
must follow the code, and codes that do not have three digits. -/
theorem C78_response_partial (hra : ReadsApart σ) (h : Handler c η σ ρ ε) (ho : OnlyReads h) (errText : Err → Bytes) (s d : σ)
    (self : η) (r : ServerResponse c ρ)
    (hi : (h.serveOneInner errText s self).1 = .ok r ∨ (h.serveOneInner errText s self).1 = .err r)
    (hv1 : r.version.major < 10) (hv2 : r.version.minor < 10)
    (hh : ∀ kv ∈ r.headers.entries, Token kv.1 ∧ FieldValue kv.2)
    (hok : (h.serveOne errText (.ok s) self).1 = .ok ()) (hd : (h.serveOne errText (.ok s) self).2.1 = some d) :
    ((∃ line major minor code reason tail, RfcStatusLine line major minor code reason ∧
        sent d = sent s ++ line ++ [13, 10] ++ tail) ↔ r.status ∈ statusTable.map (·.1)) ∧
    (r.status ∈ statusTable.map (·.1) → ∃ (line reason : Bytes) (fs : List Field) (bs : Bytes) (t' : List Ev),
      RfcStatusLine line r.version.major r.version.minor r.status.toCode.toNat reason ∧
      (∀ f ∈ fs, f.Conforms ∧ f.Usual) ∧ fs.map (fun f => (f.name, f.value)) = r.headers.entries ∧
      Delivers c (trace r.body) bs t' ∧ Ended c t' ∧
      sent d = sent s ++ blockBytes (line :: fs.map Field.line) ++ bs) := by
  obtain ⟨bs, t', g1, g2, g3⟩ := served_sent hra h ho errText s d self r hi hv1 hv2 hok hd
  refine ⟨?_, ?_⟩
  · rw [← head_conforms (entries := r.headers.entries) (rest := bs) hv1 hv2, g3]
    simp only [List.append_assoc, List.append_cancel_left_eq]
  · intro hn
    obtain ⟨reason, hr⟩ := named_line hn hv1 hv2
    obtain ⟨f1, f2⟩ := usualFields hh
    exact ⟨_, reason, _, bs, t', hr, f1, f2, g1, g2, by rw [g3, versionedHead_lines]⟩

/-- After the head the server sends the bytes of the response's body, whatever the method of the request and the status
of the response: so nothing follows the head if and only if that body is empty. Missing for the full property: that it is
empty in answer to HEAD and with the statuses 1xx, 204 and 304. -/
theorem C79_bodiless_partial (hra : ReadsApart σ) (h : Handler c η σ ρ ε) (ho : OnlyReads h) (errText : Err → Bytes) (s d : σ)
    (self : η) (r : ServerResponse c ρ)
    (hi : (h.serveOneInner errText s self).1 = .ok r ∨ (h.serveOneInner errText s self).1 = .err r)
    (hv1 : r.version.major < 10) (hv2 : r.version.minor < 10)
    (hok : (h.serveOne errText (.ok s) self).1 = .ok ()) (hd : (h.serveOne errText (.ok s) self).2.1 = some d) :
    sent d = sent s ++ versionedHead r.version.major r.version.minor r.status.display r.headers.entries ↔
      ∃ t', Delivers c (trace r.body) [] t' ∧ Ended c t' := by
  obtain ⟨bs, t', g1, g2, g3⟩ := served_sent hra h ho errText s d self r hi hv1 hv2 hok hd
  rw [g3]
  constructor
  · intro he
    have : bs = [] := by simpa using he
    subst this
    exact ⟨t', g1, g2⟩
  · rintro ⟨t1, k1, k2⟩
    have : bs = [] := g1.ended_unique g2 k1 k2
    rw [this, List.append_nil]

end

/-- Answers every GET with a status that has no name, and every DELETE with 204 and a body. -/
def oddHandler (c : Cfg) : Handler c Unit (Duplex Wire Sink) Wire Bytes :=
  { Handler.defaults c Unit (Duplex Wire Sink) Wire Bytes fun e => ServerResponse.fromString c .NotFound e with
    get := fun _ n => (.ok (ServerResponse.fromString c (.Unknown 299) b!"hi"), n)
    delete := fun _ n => (.ok (ServerResponse.fromString c .NoContent b!"gone"), n) }

theorem oddHandler_onlyReads (c : Cfg) : OnlyReads (oddHandler c) := ⟨fun _ _ _ => ⟨[], rfl⟩, fun _ _ _ => ⟨[], rfl⟩⟩

/-- A response of status 299 is sent without the space after the code that the grammar demands. -/
theorem C78_response_false (c : Cfg) : let _ := asciiCase
    ¬ ∀ (h : Handler c Unit (Duplex Wire Sink) Wire Bytes) (s d : Duplex Wire Sink), OnlyReads h → sent s = [] →
      (h.serveOne (fun _ => []) (.ok s) ()).1 = .ok () → (h.serveOne (fun _ => []) (.ok s) ()).2.1 = some d →
      ∃ line major minor code reason tail, RfcStatusLine line major minor code reason ∧ sent d = line ++ [13, 10] ++ tail := by
  intro _ hall
  let s : Duplex Wire Sink := ⟨⟨[.data b!"GET / HTTP/1.1\r\n\r\n"]⟩, ⟨[], 0, []⟩⟩
  have h1 : ((oddHandler c).serveOne (fun _ => []) (.ok s) ()).1 = .ok () := by
    rcases c with ⟨_ | _⟩ <;> decide +kernel
  have h2 : ((oddHandler c).serveOne (fun _ => []) (.ok s) ()).2.1.map sent = some b!"HTTP/1.1 299\r\n\r\nhi" := by
    rcases c with ⟨_ | _⟩ <;> decide +kernel
  cases hd : ((oddHandler c).serveOne (fun _ => []) (.ok s) ()).2.1 with
  | none => rw [hd] at h2; simp at h2
  | some d =>
    rw [hd] at h2
    simp only [Option.map_some, Option.some.injEq] at h2
    obtain ⟨line, a, b, code, reason, tail, k1, k2⟩ := hall (oddHandler c) s d (oddHandler_onlyReads c) rfl h1 hd
    have he : versionedHead 1 1 (HttpStatus.display (.Unknown 299)) [] ++ b!"hi" = line ++ [13, 10] ++ tail := by
      rw [← k2, h2]; decide +kernel
    have := (head_conforms (st := .Unknown 299) (major := 1) (minor := 1) (by decide) (by decide)).1 ⟨line, a, b, code, reason, tail, k1, he⟩
    exact absurd this (by decide)

/-- The default answer to HEAD has a body; so has a 204 if the handler gives it one. -/
theorem C79_bodiless_false (c : Cfg) : let _ := asciiCase
    ¬ (∀ (h : Handler c Unit (Duplex Wire Sink) Wire Bytes) (s d : Duplex Wire Sink) (target : Bytes), OnlyReads h → sent s = [] →
      trace s = (requestHead .Head target []).map .byte →
      (h.serveOne (fun _ => []) (.ok s) ()).1 = .ok () → (h.serveOne (fun _ => []) (.ok s) ()).2.1 = some d →
      ∃ text entries, sent d = responseHead text entries) ∧
    ((oddHandler c).serveOne (fun _ => []) (.ok (Duplex.mk (Wire.mk [.data b!"DELETE / HTTP/1.1\r\n\r\n"]) (Sink.mk [] 0 []))) ()).2.1.map sent =
      some b!"HTTP/1.1 204 No Content\r\n\r\ngone" := by
  intro _
  refine ⟨fun hall => ?_, by rcases c with ⟨_ | _⟩ <;> decide +kernel⟩
  let s : Duplex Wire Sink := ⟨⟨[.data b!"HEAD / HTTP/1.1\r\n\r\n"]⟩, ⟨[], 0, []⟩⟩
  have h1 : ((oddHandler c).serveOne (fun _ => []) (.ok s) ()).1 = .ok () := by
    rcases c with ⟨_ | _⟩ <;> decide +kernel
  have h2 : ((oddHandler c).serveOne (fun _ => []) (.ok s) ()).2.1.map sent = some b!"HTTP/1.1 405 Method Not Allowed\r\n\r\nHEAD not allowed" := by
    rcases c with ⟨_ | _⟩ <;> decide +kernel
  cases hd : ((oddHandler c).serveOne (fun _ => []) (.ok s) ()).2.1 with
  | none => rw [hd] at h2; simp at h2
  | some d =>
    rw [hd] at h2
    simp only [Option.map_some, Option.some.injEq] at h2
    obtain ⟨text, entries, k⟩ := hall (oddHandler c) s d b!"/" (oddHandler_onlyReads c) rfl (by decide +kernel) h1 hd
    have := congrArg List.getLast? (h2.symm.trans k)
    rw [show responseHead text entries = utf8 "HTTP/1.1" ++ [32] ++ text ++ [13, 10] ++ headerText entries ++ [13] ++ [10] by
      simp [responseHead], List.getLast?_concat] at this
    exact absurd this (by decide)

/-- Witness for `C78_response_partial` and `C79_bodiless_partial`: the hypotheses hold of the sample handler's answers. -/
example : let _ := asciiCase
    let s : Duplex Wire Sink := ⟨⟨[.data b!"GET / HTTP/1.1\r\n\r\n"]⟩, ⟨[], 0, [.accept 1, .accept 7]⟩⟩
    (match ((sampleHandler ⟨true⟩).serveOneInner (fun _ => []) s 0).1 with
      | .ok r => decide (r.status = .OK ∧ r.version = ⟨1, 1⟩ ∧ r.headers.entries = []) | _ => false) = true ∧
    ((sampleHandler ⟨true⟩).serveOne (fun _ => []) (.ok s) 0).1 = .ok () ∧
    ((sampleHandler ⟨true⟩).serveOne (fun _ => []) (.ok s) 0).2.1.map sent = some b!"HTTP/1.1 200 OK\r\n\r\nhello" ∧
    HttpStatus.OK ∈ statusTable.map (·.1) := by
  intro _ s
  refine ⟨?_, ?_, ?_, ?_⟩ <;> decide +kernel

end HttpIo
