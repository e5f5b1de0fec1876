import Verif.Lemmas.Grammar
import Verif.Props.Accept
import Verif.Props.Body

/-! The grammar of RFC 7230 against what the crate reads (C73–C76). -/

namespace HttpIo
open Spec

section
variable [CaseMap] {σ : Type} [LawfulReader σ]

/-! ### C73 -/

/-- A block of header fields that conform is accepted exactly when every value is UTF-8 and every colon is followed by a
space; then each field's value is what follows that space, with all further blanks, and the stream stands after the block.
Missing for the full property: fields without a space (or with a tab) after the colon, other encodings, and the removal
of the blanks around the value. -/
theorem C73_fields_partial (c : Cfg) (s : σ) (fs : List Field) (t' : List Ev) (hf : ∀ f ∈ fs, f.Conforms)
    (hd : Delivers c (trace s) (blockBytes (fs.map Field.line)) t') :
    ((∃ hs s', HttpHeaders.deserialize c s = (.ok hs, s')) ↔ ∀ f ∈ fs, IsText f.value ∧ f.after.head? = some 32) ∧
    ∀ hs s', HttpHeaders.deserialize c s = (.ok hs, s') →
      trace s' = t' ∧ AnswersLike hs.get (fs.map fun f => (f.name, f.after.tail)) := by
  have hblank : ∀ l ∈ fs.map Field.line, ¬ StartsBlank l := by
    intro l hl
    obtain ⟨f, hf', rfl⟩ := List.mem_map.1 hl
    exact (hf f hf').facts.2.2.1
  have hname : ∀ kv ∈ fieldHist fs, (58 : UInt8) ∉ kv.1 := by
    intro kv hkv
    obtain ⟨f, hf', rfl⟩ := List.mem_map.1 hkv
    exact (hf f hf').facts.2.2.2.1
  have good : (∀ f ∈ fs, IsText f.value ∧ f.after.head? = some 32) →
      ∃ s', HttpHeaders.deserialize c s =
        (.ok ⟨insertAll ((fieldHist fs).map fun kv => (CaseMap.lower kv.1, kv.2)) []⟩, s') ∧ trace s' = t' := by
    intro h
    have he := hist_of_fields fun f hf' => (h f hf').2
    refine deserialize_hist (raw := fs.map Field.line) ?_ ?_ hname hd
    · rw [he]; exact folded_self hblank
    · intro l hl
      obtain ⟨f, hf', rfl⟩ := List.mem_map.1 hl
      exact ⟨(hf f hf').facts.1, (hf f hf').facts.2.1, (hf f hf').text.2 (h f hf').1⟩
  have back : ∀ hs s', HttpHeaders.deserialize c s = (.ok hs, s') → ∀ f ∈ fs, IsText f.value ∧ f.after.head? = some 32 := by
    intro hs s' h
    obtain ⟨lines, k1, k2⟩ := headers_inv h
    obtain ⟨rfl, _⟩ := block_unique k1 (by
      intro n hn
      obtain ⟨f, hf', rfl⟩ := List.mem_map.1 hn
      exact ⟨(hf f hf').facts.1, (hf f hf').facts.2.1⟩) k2 hd
    obtain ⟨s2, k3, _⟩ := deserialize_block (folded_self hblank) k1 k2
    have hok : ∃ r, parseLines (fs.map Field.line) = .ok r := by
      rw [h] at k3
      cases hp : parseLines (fs.map Field.line) with
      | ok r => exact ⟨r, rfl⟩
      | err e => rw [hp] at k3; simp [Res.map] at k3
      | panic => rw [hp] at k3; simp [Res.map] at k3
    obtain ⟨hist, g1, g2⟩ := hist_of_lines ((parseLines_iff fun l hl => (k1 l hl).2.2).1 hok)
    obtain ⟨_, g3⟩ := fields_of_hist hf g2 g1.symm
    exact fun f hf' => ⟨(hf f hf').text.1 (k1 _ (List.mem_map.2 ⟨f, hf', rfl⟩)).2.2, g3 f hf'⟩
  refine ⟨⟨fun ⟨hs, s', h⟩ => back hs s' h, fun h => ?_⟩, ?_⟩
  · obtain ⟨s', h', _⟩ := good h
    exact ⟨_, _, h'⟩
  · intro hs s' h
    obtain ⟨s2, h2, h3⟩ := good (back hs s' h)
    rw [h] at h2
    simp only [Prod.mk.injEq, Res.ok.injEq] at h2
    obtain ⟨rfl, rfl⟩ := h2
    exact ⟨h3, answersLike_insertAll (fieldHist fs)⟩

/-- Fields in the usual spelling with UTF-8 values are read as the RFC says. -/
theorem C73_usual (c : Cfg) (s : σ) (fs : List Field) (t' : List Ev)
    (hf : ∀ f ∈ fs, f.Conforms ∧ f.Usual ∧ IsText f.value)
    (hd : Delivers c (trace s) (blockBytes (fs.map Field.line)) t') :
    ∃ hs s', HttpHeaders.deserialize c s = (.ok hs, s') ∧ trace s' = t' ∧
      AnswersLike hs.get (fs.map fun f => (f.name, f.value)) := by
  obtain ⟨h1, h2⟩ := C73_fields_partial c s fs t' (fun f h => (hf f h).1) hd
  obtain ⟨hs, s', h⟩ := h1.2 fun f h => ⟨(hf f h).2.2, by
    obtain ⟨_, ⟨hp, _⟩, _⟩ := hf f h; simp [Field.after, hp]⟩
  obtain ⟨k1, k2⟩ := h2 hs s' h
  refine ⟨hs, s', h, k1, ?_⟩
  have : (fs.map fun f => (f.name, f.after.tail)) = fs.map fun f => (f.name, f.value) := by
    apply List.map_congr_left
    intro f h
    obtain ⟨_, ⟨hp, ht⟩, _⟩ := hf f h
    simp [Field.after, hp, ht]
  rwa [this] at k2

end

theorem fieldValue_of {v : Bytes} (h : ∀ b ∈ v, b = 9 ∨ b = 32 ∨ (33 ≤ b.toNat ∧ b.toNat ≤ 126) ∨ 128 ≤ b.toNat)
    (h1 : ∀ b ∈ v.head?, b ≠ 32 ∧ b ≠ 9) (h2 : ∀ b ∈ v.getLast?, b ≠ 32 ∧ b ≠ 9) : FieldValue v := ⟨h, h1, h2⟩

theorem token_of {w : Bytes} (h0 : w ≠ [])
    (h : ∀ b ∈ w, b ∈ b!"!#$%&'*+-.^_`|~0123456789ABCDEFGHIJKLMNOPQRSTUVWXYZabcdefghijklmnopqrstuvwxyz") : Token w := ⟨h0, h⟩

theorem vis_of {w : Bytes} (h : ∀ b ∈ w, 33 ≤ b.toNat ∧ b.toNat ≤ 126) : ∀ b ∈ w, VisChar b := h

theorem text_of {w : Bytes} (h : ∀ b ∈ w, b = 9 ∨ b = 32 ∨ (33 ≤ b.toNat ∧ b.toNat ≤ 126) ∨ 128 ≤ b.toNat) :
    ∀ b ∈ w, TextChar b := h

theorem blanks_of {w : Bytes} (h : ∀ b ∈ w, b = 32 ∨ b = 9) : Blanks w := h

/-- Witness: two usual fields, one value with a blank inside and characters beyond ASCII, one empty value. -/
example (c : Cfg) :
    let fs : List Field := [⟨b!"Host", b!" ", b!"a é", []⟩, ⟨b!"X-Empty", b!" ", [], []⟩]
    (∀ f ∈ fs, f.Conforms ∧ f.Usual ∧ IsText f.value) ∧
    Delivers c (trace (Wire.mk [.data b!"Host: a é\r\nX-Emp", .data b!"ty: \r\n\r\nbody"])) (blockBytes (fs.map Field.line))
      (b!"body".map .byte) := by
  refine ⟨?_, ?_⟩
  · intro f hf
    simp only [List.mem_cons, List.not_mem_nil, or_false] at hf
    rcases hf with rfl | rfl
    · exact ⟨⟨token_of (by decide) (by decide), blanks_of (by decide), fieldValue_of (by decide) (by decide) (by decide),
        blanks_of (by decide)⟩, ⟨rfl, rfl⟩, (validUtf8_iff _).1 (by decide)⟩
    · exact ⟨⟨token_of (by decide) (by decide), blanks_of (by decide), fieldValue_of (by decide) (by decide) (by decide),
        blanks_of (by decide)⟩, ⟨rfl, rfl⟩, (validUtf8_iff _).1 (by decide)⟩
  · exact delivers_map c (b!"Host: a é\r\nX-Empty: \r\n\r\n") (b!"body".map .byte)

/-- The property is false: `host:x`, which conforms, is refused; so is a value in Latin-1; and the value of `a: b` with a
blank after it is `b` with the blank. -/
theorem C73_fields_false (c : Cfg) : let _ := asciiCase
    (⟨b!"host", [], b!"x", []⟩ : Field).Conforms ∧
    (∀ hs s', HttpHeaders.deserialize c (Wire.mk [.data b!"host:x\r\n\r\n"]) ≠ (.ok hs, s')) ∧
    (⟨b!"a", b!" ", [233], []⟩ : Field).Conforms ∧
    (∀ hs s', HttpHeaders.deserialize c (Wire.mk [.data [97, 58, 32, 233, 13, 10, 13, 10]]) ≠ (.ok hs, s')) ∧
    (⟨b!"a", b!" ", b!"b", b!" "⟩ : Field).Conforms ∧
    ∃ hs s', HttpHeaders.deserialize c (Wire.mk [.data b!"a: b \r\n\r\n"]) = (.ok hs, s') ∧ hs.get b!"a" = some b!"b " := by
  intro _
  have f1 : (⟨b!"host", [], b!"x", []⟩ : Field).Conforms :=
    ⟨token_of (by decide) (by decide), blanks_of (by decide), fieldValue_of (by decide) (by decide) (by decide), blanks_of (by decide)⟩
  have f2 : (⟨b!"a", b!" ", [233], []⟩ : Field).Conforms :=
    ⟨token_of (by decide) (by decide), blanks_of (by decide), fieldValue_of (by decide) (by decide) (by decide), blanks_of (by decide)⟩
  have f3 : (⟨b!"a", b!" ", b!"b", b!" "⟩ : Field).Conforms :=
    ⟨token_of (by decide) (by decide), blanks_of (by decide), fieldValue_of (by decide) (by decide) (by decide), blanks_of (by decide)⟩
  have p1 := C73_fields_partial c (Wire.mk [.data b!"host:x\r\n\r\n"]) [⟨b!"host", [], b!"x", []⟩] [] (by simpa using f1)
    (delivers_map' c b!"host:x\r\n\r\n")
  have p2 := C73_fields_partial c (Wire.mk [.data [97, 58, 32, 233, 13, 10, 13, 10]]) [⟨b!"a", b!" ", [233], []⟩] [] (by simpa using f2)
    (delivers_map' c [97, 58, 32, 233, 13, 10, 13, 10])
  have p3 := C73_fields_partial c (Wire.mk [.data b!"a: b \r\n\r\n"]) [⟨b!"a", b!" ", b!"b", b!" "⟩] [] (by simpa using f3)
    (delivers_map' c b!"a: b \r\n\r\n")
  refine ⟨f1, ?_, f2, ?_, f3, ?_⟩
  · intro hs s' h
    have := (p1.1.1 ⟨hs, s', h⟩ _ (List.mem_singleton.2 rfl)).2
    simp [Field.after] at this
  · intro hs s' h
    have := (p2.1.1 ⟨hs, s', h⟩ _ (List.mem_singleton.2 rfl)).1
    rw [← validUtf8_iff] at this
    exact absurd this (by decide)
  · obtain ⟨hs, s', h⟩ := p3.1.2 (by
      intro f hf
      simp only [List.mem_cons, List.not_mem_nil, or_false] at hf
      subst hf
      exact ⟨(validUtf8_iff _).1 (by decide), rfl⟩)
    refine ⟨hs, s', h, ?_⟩
    have := ((p3.2 hs s' h).2 b!"a").1 b!"b "
    rw [this]
    exact ⟨[], b!"a", [], rfl, rfl, by simp⟩

/-! ### C75 -/

section
variable [CaseMap] {σ : Type} [LawfulReader σ]

omit [LawfulReader σ] in
theorem rfcRequestLine_method {line method target : Bytes} {major minor : Nat} (h : RfcRequestLine line method target major minor)
    (m : HttpMethod) : CaseMap.upper method = utf8 (methodName m) ↔ SameText method (utf8 (methodName m)) := by
  obtain ⟨_, _, h1, _⟩ := h
  rw [← method_iff]
  exact (C05_parse method (fun b hb => (tokenChar_facts (h1.2 b hb)).1) m).1

/-- Of the request heads that conform, exactly these are accepted: the method is one of the seven, in any case; field
values are UTF-8 and follow a colon and a space; the last content length is a number below 2^64. Method, target and
version are those of the request line, the stream stands after the head. Missing for the full property: the other fields
(C73) and other methods, which should be refused as unknown but not as malformed; and `get` should not be `GET`. -/
theorem C75_request_partial (c : Cfg) (s : σ) (line method target : Bytes) (major minor : Nat) (fs : List Field) (t' : List Ev)
    (hl : RfcRequestLine line method target major minor) (hf : ∀ f ∈ fs, f.Conforms)
    (hd : Delivers c (trace s) (blockBytes (line :: fs.map Field.line)) t') :
    ((∃ r s', HttpRequest.deserialize c s = (.ok r, s')) ↔
      (∃ m, SameText method (utf8 (methodName m))) ∧ (∀ f ∈ fs, IsText f.value ∧ f.after.head? = some 32) ∧
      ∀ v, LastWith (fun k => CaseMap.lower k = utf8 "content-length") (fs.map fun f => (f.name, f.after.tail)) v →
        ∃ n, UnsignedText 10 v n ∧ n < 2 ^ 64) ∧
    ∀ r s', HttpRequest.deserialize c s = (.ok r, s') →
      trace s' = t' ∧ SameText method (utf8 (methodName r.method)) ∧ r.uri = target ∧ r.version.major = major ∧
      r.version.minor = minor ∧ AnswersLike r.headers.get (fs.map fun f => (f.name, f.after.tail)) := by
  have hraw := (rfcRequestLine_facts hl).1
  have hsame := rfcRequestLine_method hl
  constructor
  · constructor
    · rintro ⟨r, s', h⟩
      obtain ⟨line', hist, k1, k2, k3⟩ := C69_request_sound c s s' r h
      obtain ⟨rfl, e2, e3, e4⟩ := headOf_fields ⟨hraw.1, hraw.2.1⟩ hf hd k2
      refine ⟨⟨r.method, (hsame _).1 ((rfcRequestLine_words hl).1 k1).1⟩, fun f hf' => ⟨(hf f hf').text.1 (e4 f hf').1, (e4 f hf').2⟩, ?_⟩
      obtain ⟨_, _, _, _, _, _, h6⟩ := k2
      rw [e3] at h6
      exact h6
    · rintro ⟨⟨m, hm⟩, h2, h3⟩
      have hh := headOf_of_fields hraw hf (fun f hf' => ⟨(hf f hf').text.2 (h2 f hf').1, (h2 f hf').2⟩) hd h3
      obtain ⟨r, s', h, _⟩ := C69_request_complete c s line m target ⟨major, minor⟩ _ t'
        ((rfcRequestLine_words hl).2 ⟨(hsame _).2 hm, rfl, rfl, rfl⟩) hh
      exact ⟨r, s', h⟩
  · intro r s' h
    obtain ⟨line', hist, k1, k2, k3⟩ := C69_request_sound c s s' r h
    obtain ⟨rfl, e2, e3, e4⟩ := headOf_fields ⟨hraw.1, hraw.2.1⟩ hf hd k2
    obtain ⟨a1, a2, a3, a4⟩ := (rfcRequestLine_words hl).1 k1
    rw [e3] at k3
    exact ⟨e2, (hsame _).1 a1, a2, a3, a4, k3⟩

/-- A request in the usual spelling is read as the RFC says. -/
theorem C75_usual (c : Cfg) (s : σ) (line target : Bytes) (m : HttpMethod) (major minor : Nat) (fs : List Field) (t' : List Ev)
    (hl : RfcRequestLine line (utf8 (methodName m)) target major minor)
    (hf : ∀ f ∈ fs, f.Conforms ∧ f.Usual ∧ IsText f.value)
    (hcl : ∀ f ∈ fs, CaseMap.lower f.name = utf8 "content-length" → ∃ n, Numeral 10 f.value n ∧ n < 2 ^ 64)
    (hd : Delivers c (trace s) (blockBytes (line :: fs.map Field.line)) t') :
    ∃ r s', HttpRequest.deserialize c s = (.ok r, s') ∧ trace s' = t' ∧ r.method = m ∧ r.uri = target ∧
      r.version.major = major ∧ r.version.minor = minor ∧ AnswersLike r.headers.get (fs.map fun f => (f.name, f.value)) := by
  have hfs : (fs.map fun f => (f.name, f.after.tail)) = fs.map fun f => (f.name, f.value) := by
    apply List.map_congr_left
    intro f h
    obtain ⟨_, ⟨hp, ht⟩, _⟩ := hf f h
    simp [Field.after, hp, ht]
  have hraw := (rfcRequestLine_facts hl).1
  have hascii : AsciiText (utf8 (methodName m)) := by rw [methodName_bytes, ← isAscii_iff]; cases m <;> decide
  have hdisp : HttpMethod.fromStr (utf8 (methodName m)) = .ok m := by rw [methodName_bytes]; exact C05_display_parse m
  obtain ⟨h1, h2⟩ := C75_request_partial c s line _ target major minor fs t' hl (fun f h => (hf f h).1) hd
  rw [hfs] at h1 h2
  obtain ⟨r, s', h⟩ := h1.2 ⟨⟨m, (C05_parse _ hascii m).1.1 hdisp⟩, fun f h => ⟨(hf f h).2.2, by
    obtain ⟨_, ⟨hp, _⟩, _⟩ := hf f h; simp [Field.after, hp]⟩, by
    rintro v ⟨pre, k, post, e, hk, _⟩
    have : (k, v) ∈ fs.map fun f => (f.name, f.value) := by rw [e]; simp
    obtain ⟨f, hf', hkv⟩ := List.mem_map.1 this
    simp only [Prod.mk.injEq] at hkv
    obtain ⟨rfl, rfl⟩ := hkv
    obtain ⟨n, g1, g2⟩ := hcl f hf' hk
    exact ⟨n, .inl g1, g2⟩⟩
  obtain ⟨k1, k2, k3, k4, k5, k6⟩ := h2 r s' h
  refine ⟨r, s', h, k1, ?_, k3, k4, k5, k6⟩
  have := (C05_parse _ hascii r.method).1.2 k2
  rw [hdisp] at this
  simpa using this.symm

/-! ### C76 -/

/-- Of the response heads that conform, exactly these are accepted: the reason phrase and field values are UTF-8, the
colons are followed by a space, the last content length is a number below 2^64. Missing for the full property: the other
fields (C73) and phrases in other encodings. -/
theorem C76_response_partial (c : Cfg) (s : σ) (line reason : Bytes) (major minor code : Nat) (fs : List Field) (t' : List Ev)
    (hl : RfcStatusLine line major minor code reason) (hf : ∀ f ∈ fs, f.Conforms)
    (hd : Delivers c (trace s) (blockBytes (line :: fs.map Field.line)) t') :
    ((∃ r s', HttpResponse.deserialize c s = (.ok r, s')) ↔
      IsText reason ∧ (∀ f ∈ fs, IsText f.value ∧ f.after.head? = some 32) ∧
      ∀ v, LastWith (fun k => CaseMap.lower k = utf8 "content-length") (fs.map fun f => (f.name, f.after.tail)) v →
        ∃ n, UnsignedText 10 v n ∧ n < 2 ^ 64) ∧
    ∀ r s', HttpResponse.deserialize c s = (.ok r, s') →
      trace s' = t' ∧ r.version.major = major ∧ r.version.minor = minor ∧ r.status.toCode.toNat = code ∧
      AnswersLike r.headers.get (fs.map fun f => (f.name, f.after.tail)) := by
  obtain ⟨f1, f2, f3, f4, f5⟩ := rfcStatusLine_facts hl
  have good : (IsText reason ∧ (∀ f ∈ fs, IsText f.value ∧ f.after.head? = some 32) ∧
      ∀ v, LastWith (fun k => CaseMap.lower k = utf8 "content-length") (fs.map fun f => (f.name, f.after.tail)) v →
        ∃ n, UnsignedText 10 v n ∧ n < 2 ^ 64) → ∃ r s', HttpResponse.deserialize c s = (.ok r, s') ∧ trace s' = t' ∧
          r.version = ⟨major, minor⟩ ∧ r.status.toCode.toNat = code ∧
          AnswersLike r.headers.get (fs.map fun f => (f.name, f.after.tail)) := by
    rintro ⟨h1, h2, h3⟩
    have hh := headOf_of_fields ⟨f1, f2, f3.2 h1⟩ hf (fun f hf' => ⟨(hf f hf').text.2 (h2 f hf').1, (h2 f hf').2⟩) hd h3
    exact C69_response_complete c s line ⟨major, minor⟩ code _ t' f4 hh
  have back : ∀ r s', HttpResponse.deserialize c s = (.ok r, s') → IsText reason ∧
      (∀ f ∈ fs, IsText f.value ∧ f.after.head? = some 32) ∧
      ∀ v, LastWith (fun k => CaseMap.lower k = utf8 "content-length") (fs.map fun f => (f.name, f.after.tail)) v →
        ∃ n, UnsignedText 10 v n ∧ n < 2 ^ 64 := by
    intro r s' h
    obtain ⟨line', hist, k1, k2, k3⟩ := C69_response_sound c s s' r h
    obtain ⟨rfl, e2, e3, e4⟩ := headOf_fields ⟨f1, f2⟩ hf hd k2
    obtain ⟨_, h1, _, _, _, _, h6⟩ := k2
    rw [e3] at h6
    exact ⟨f3.1 h1.2.2, fun f hf' => ⟨(hf f hf').text.1 (e4 f hf').1, (e4 f hf').2⟩, h6⟩
  refine ⟨⟨fun ⟨r, s', h⟩ => back r s' h, fun h => ?_⟩, ?_⟩
  · obtain ⟨r, s', h', _⟩ := good h
    exact ⟨r, s', h'⟩
  · intro r s' h
    obtain ⟨r2, s2, g1, g2, g3, g4, g5⟩ := good (back r s' h)
    rw [h] at g1
    simp only [Prod.mk.injEq, Res.ok.injEq] at g1
    obtain ⟨rfl, rfl⟩ := g1
    rw [g3]
    exact ⟨g2, rfl, rfl, g4, g5⟩

end

/-- The method is read without regard to case, other methods are refused, and so is a head with a field that has no space
after its colon. -/
theorem C75_request_false (c : Cfg) : let _ := asciiCase
    RfcRequestLine b!"GET / HTTP/1.1" b!"GET" b!"/" 1 1 ∧ (⟨b!"host", [], b!"x", []⟩ : Field).Conforms ∧
    (∀ r s', HttpRequest.deserialize c (Wire.mk [.data b!"GET / HTTP/1.1\r\nhost:x\r\n\r\n"]) ≠ (.ok r, s')) ∧
    RfcRequestLine b!"PATCH / HTTP/1.1" b!"PATCH" b!"/" 1 1 ∧
    (∀ r s', HttpRequest.deserialize c (Wire.mk [.data b!"PATCH / HTTP/1.1\r\n\r\n"]) ≠ (.ok r, s')) ∧
    RfcRequestLine b!"get / HTTP/1.1" b!"get" b!"/" 1 1 ∧
    ∃ r s', HttpRequest.deserialize c (Wire.mk [.data b!"get / HTTP/1.1\r\n\r\n"]) = (.ok r, s') ∧ r.method = .Get := by
  intro _
  have hv : RfcVersion b!"HTTP/1.1" 1 1 := ⟨49, 49, by decide +kernel, .dec 1 (by decide) (by decide), .dec 1 (by decide) (by decide)⟩
  have l1 : RfcRequestLine b!"GET / HTTP/1.1" b!"GET" b!"/" 1 1 := ⟨_, rfl, token_of (by decide) (by decide), by decide, vis_of (by decide), hv⟩
  have l2 : RfcRequestLine b!"PATCH / HTTP/1.1" b!"PATCH" b!"/" 1 1 := ⟨_, rfl, token_of (by decide) (by decide), by decide, vis_of (by decide), hv⟩
  have l3 : RfcRequestLine b!"get / HTTP/1.1" b!"get" b!"/" 1 1 := ⟨_, rfl, token_of (by decide) (by decide), by decide, vis_of (by decide), hv⟩
  have f1 : (⟨b!"host", [], b!"x", []⟩ : Field).Conforms :=
    ⟨token_of (by decide) (by decide), blanks_of (by decide), fieldValue_of (by decide) (by decide) (by decide), blanks_of (by decide)⟩
  have p1 := C75_request_partial c (Wire.mk [.data b!"GET / HTTP/1.1\r\nhost:x\r\n\r\n"]) _ _ _ _ _ [⟨b!"host", [], b!"x", []⟩] [] l1
    (by simpa using f1) (delivers_map' c b!"GET / HTTP/1.1\r\nhost:x\r\n\r\n")
  have p2 := C75_request_partial c (Wire.mk [.data b!"PATCH / HTTP/1.1\r\n\r\n"]) _ _ _ _ _ [] [] l2
    (by simp) (delivers_map' c b!"PATCH / HTTP/1.1\r\n\r\n")
  have p3 := C75_request_partial c (Wire.mk [.data b!"get / HTTP/1.1\r\n\r\n"]) _ _ _ _ _ [] [] l3
    (by simp) (delivers_map' c b!"get / HTTP/1.1\r\n\r\n")
  have hascii : ∀ {w : Bytes}, isAscii w = true → AsciiText w := fun h => (isAscii_iff _).1 h
  refine ⟨l1, f1, ?_, l2, ?_, l3, ?_⟩
  · intro r s' h
    have := ((p1.1.1 ⟨r, s', h⟩).2.1 _ (List.mem_singleton.2 rfl)).2
    simp [Field.after] at this
  · intro r s' h
    obtain ⟨m, hm⟩ := (p2.1.1 ⟨r, s', h⟩).1
    have := (C05_parse b!"PATCH" (hascii (by decide)) m).1.2 hm
    have hp : HttpMethod.fromStr b!"PATCH" = .err .parse := by decide
    rw [hp] at this
    simp at this
  · have hg : SameText b!"get" (utf8 (methodName .Get)) := (C05_parse b!"get" (hascii (by decide)) .Get).1.1 (by decide)
    obtain ⟨r, s', h⟩ := p3.1.2 ⟨⟨.Get, hg⟩, by simp, by rintro v ⟨pre, k, post, e, _⟩; simp at e⟩
    refine ⟨r, s', h, ?_⟩
    have := (C05_parse b!"get" (hascii (by decide)) r.method).1.2 (p3.2 r s' h).2.1
    rw [show HttpMethod.fromStr b!"get" = .ok .Get by decide] at this
    simpa using this.symm

/-- Witness for `C75_usual`: a POST of version 1.0 with a content length and another field. -/
example (c : Cfg) : let _ := asciiCase
    let fs : List Field := [⟨b!"Host", b!" ", b!"a:80", []⟩, ⟨b!"Content-LENGTH", b!" ", b!"04", []⟩]
    RfcRequestLine b!"POST /x?y HTTP/1.0" (utf8 (methodName .Post)) b!"/x?y" 1 0 ∧
    (∀ f ∈ fs, f.Conforms ∧ f.Usual ∧ IsText f.value) ∧
    (∀ f ∈ fs, CaseMap.lower f.name = utf8 "content-length" → ∃ n, Numeral 10 f.value n ∧ n < 2 ^ 64) ∧
    Delivers c (trace (Wire.mk [.data b!"POST /x?y HTTP/1.0\r\nHost: a:80\r\nContent", .data b!"-LENGTH: 04\r\n\r\nbody"]))
      (blockBytes (b!"POST /x?y HTTP/1.0" :: fs.map Field.line)) (b!"body".map .byte) := by
  intro _
  refine ⟨?_, ?_, ?_, ?_⟩
  · rw [methodName_bytes]
    exact ⟨b!"HTTP/1.0", rfl, token_of (by decide) (by decide), by decide, vis_of (by decide), 49, 48, by decide +kernel,
      .dec 1 (by decide) (by decide), .dec 0 (by decide) (by decide)⟩
  · intro f hf
    simp only [List.mem_cons, List.not_mem_nil, or_false] at hf
    rcases hf with rfl | rfl
    · exact ⟨⟨token_of (by decide) (by decide), blanks_of (by decide), fieldValue_of (by decide) (by decide) (by decide),
        blanks_of (by decide)⟩, ⟨rfl, rfl⟩, (validUtf8_iff _).1 (by decide)⟩
    · exact ⟨⟨token_of (by decide) (by decide), blanks_of (by decide), fieldValue_of (by decide) (by decide) (by decide),
        blanks_of (by decide)⟩, ⟨rfl, rfl⟩, (validUtf8_iff _).1 (by decide)⟩
  · intro f hf h
    simp only [List.mem_cons, List.not_mem_nil, or_false] at hf
    rcases hf with rfl | rfl
    · rw [utf8_contentLength] at h
      exact absurd h (by decide)
    · exact ⟨4, (Numeral.one (.dec 0 (by decide) (by decide))).snoc (.dec 4 (by decide) (by decide)), by decide⟩
  · exact delivers_map c b!"POST /x?y HTTP/1.0\r\nHost: a:80\r\nContent-LENGTH: 04\r\n\r\n" (b!"body".map .byte)

/-- The property is false of responses: a reason phrase in Latin-1 makes the response unreadable. -/
theorem C76_response_false (c : Cfg) : let _ := asciiCase
    RfcStatusLine [72, 84, 84, 80, 47, 49, 46, 49, 32, 52, 48, 52, 32, 233] 1 1 404 [233] ∧
    ∀ r s', HttpResponse.deserialize c (Wire.mk [.data [72, 84, 84, 80, 47, 49, 46, 49, 32, 52, 48, 52, 32, 233, 13, 10, 13, 10]]) ≠ (.ok r, s') := by
  intro _
  have hl : RfcStatusLine [72, 84, 84, 80, 47, 49, 46, 49, 32, 52, 48, 52, 32, 233] 1 1 404 [233] :=
    ⟨b!"HTTP/1.1", b!"404", rfl, ⟨49, 49, by decide +kernel, .dec 1 (by decide) (by decide), .dec 1 (by decide) (by decide)⟩, rfl,
      ((Numeral.one (.dec 4 (by decide) (by decide))).snoc (.dec 0 (by decide) (by decide))).snoc (.dec 4 (by decide) (by decide)),
      text_of (by decide)⟩
  refine ⟨hl, fun r s' h => ?_⟩
  have p := C76_response_partial c (Wire.mk [.data [72, 84, 84, 80, 47, 49, 46, 49, 32, 52, 48, 52, 32, 233, 13, 10, 13, 10]]) _ _ _ _ _ [] [] hl (by simp)
    (delivers_map' c [72, 84, 84, 80, 47, 49, 46, 49, 32, 52, 48, 52, 32, 233, 13, 10, 13, 10])
  have := (p.1.1 ⟨r, s', h⟩).1
  rw [← validUtf8_iff] at this
  exact absurd this (by decide)

/-- Witness for `C76_response_partial`, where the response is accepted: no reason phrase. -/
example (c : Cfg) : let _ := asciiCase
    let fs : List Field := [⟨b!"Server", b!" ", b!"x", b!" "⟩]
    RfcStatusLine b!"HTTP/1.1 200 " 1 1 200 [] ∧ (∀ f ∈ fs, f.Conforms ∧ IsText f.value ∧ f.after.head? = some 32) ∧
    Delivers c (trace (Wire.mk [.data b!"HTTP/1.1 200 \r\nServer: x \r\n\r\nbody"]))
      (blockBytes (b!"HTTP/1.1 200 " :: fs.map Field.line)) (b!"body".map .byte) := by
  refine ⟨⟨b!"HTTP/1.1", b!"200", rfl, ⟨49, 49, by decide +kernel, .dec 1 (by decide) (by decide), .dec 1 (by decide) (by decide)⟩, rfl,
      ((Numeral.one (.dec 2 (by decide) (by decide))).snoc (.dec 0 (by decide) (by decide))).snoc (.dec 0 (by decide) (by decide)),
      by simp⟩, ?_, ?_⟩
  · intro f hf
    simp only [List.mem_cons, List.not_mem_nil, or_false] at hf
    subst hf
    exact ⟨⟨token_of (by decide) (by decide), blanks_of (by decide), fieldValue_of (by decide) (by decide) (by decide),
        blanks_of (by decide)⟩, (validUtf8_iff _).1 (by decide), rfl⟩
  · exact delivers_map c b!"HTTP/1.1 200 \r\nServer: x \r\n\r\n" (b!"body".map .byte)

/-! ### C74 -/

section
variable {ρ : Type} [LawfulReader ρ] [ZeroReader ρ]

/-- A chunked body that conforms and has no chunk extensions is decoded to its data. When its end has been reported, the
trailer and the empty line that ends it are still on the stream. Missing for the full property: extensions, and the
consumption of the trailer part. -/
theorem C74_plain_partial (c : Cfg) (n : Option Nat) (u : ρ) (chs : List RfcChunk) (zeros : Bytes) (trailer : List Field)
    (rest : List Ev) (hc : ∀ ch ∈ chs, ch.Conforms ∧ ch.ext = [] ∧ ch.data.length < 2 ^ 64) (hz : Numeral 16 zeros 0)
    (hd : trace u = (rfcChunked chs zeros [] trailer).map .byte ++ rest) :
    Yields (HttpBody.new c (some b!"chunked") n u) (rfcData chs) ∧
    ∀ sizes, Positive sizes → .ok [] ∈ (calls (HttpBody.new c (some b!"chunked") n u) sizes).1 →
      ∃ s, (calls (HttpBody.new c (some b!"chunked") n u) sizes).2.under = some s ∧
        trace s = (blockBytes (trailer.map Field.line)).map .byte ++ rest := by
  have hb : ∀ (chs : List RfcChunk), (∀ ch ∈ chs, ch.ext = []) → rfcChunks chs zeros [] =
      chunkedBytes (chs.map fun ch => ⟨ch.size, ch.data, [13, 10]⟩) zeros := by
    intro chs h
    unfold rfcChunks chunkedBytes
    have : chs.map RfcChunk.bytes = (chs.map fun ch => (⟨ch.size, ch.data, [13, 10]⟩ : Chunk)).map Chunk.bytes := by
      rw [List.map_map]
      apply List.map_congr_left
      intro ch hch
      simp [RfcChunk.bytes, Chunk.bytes, h ch hch]
    rw [this]; simp
  have hdata : chunkedData (chs.map fun ch => (⟨ch.size, ch.data, [13, 10]⟩ : Chunk)) = rfcData chs := by
    unfold chunkedData rfcData
    rw [List.map_map]; rfl
  rw [← hdata]
  refine C24_decode c n u _ zeros _ ?_ (.inl hz) ?_
  · intro ch hch
    obtain ⟨ch', hm, rfl⟩ := List.mem_map.1 hch
    obtain ⟨⟨h1, h2, _⟩, _, h3⟩ := hc ch' hm
    exact ⟨⟨.inl h1, h2, h3, rfl⟩, rfl⟩
  · have : trace u = (chunkedBytes (chs.map fun ch => ⟨ch.size, ch.data, [13, 10]⟩) zeros).map .byte ++
        ((blockBytes (trailer.map Field.line)).map .byte ++ rest) := by
      rw [hd, ← hb chs fun ch h => (hc ch h).2.1]; simp [rfcChunked]
    rw [this]
    exact deliversChunked_map c _ _ _

/-- A size line with an extension is refused: the caller gets the data of the chunks before it, then an error. -/
theorem C74_extension (c : Cfg) (n : Option Nat) (u : ρ) (pre : List RfcChunk) (size ext : Bytes) (k : Nat) (rest : List Ev)
    (hc : ∀ ch ∈ pre, ch.Conforms ∧ ch.ext = [] ∧ ch.data.length < 2 ^ 64) (hs : Numeral 16 size k) (he : ChunkExt ext) (hne : ext ≠ [])
    (hd : trace u = ((pre.map RfcChunk.bytes).flatten ++ size ++ ext ++ [13, 10]).map .byte ++ rest) :
    (IsText ext → FailsAfter (HttpBody.new c (some b!"chunked") n u) (rfcData pre) (if c.std then .io (.other 0) else .parseInt)) ∧
    (¬ IsText ext → FailsAfter (HttpBody.new c (some b!"chunked") n u) (rfcData pre) (if c.std then .io (.other 0) else .utf8)) := by
  have key : ∀ e, chunkT c [] none ((size ++ ext ++ [13, 10]).map .byte ++ rest) = [.fault e] →
      FailsAfter (HttpBody.new c (some b!"chunked") n u) (rfcData pre) e := by
    intro e h
    rw [chunked_new]
    apply failsAfter_of_trace (t := [])
    rw [HttpBody.trace_chunked, HttpChunkedBody.trace_new]
    generalize trace u = t at hd
    clear hs he hne
    induction pre generalizing t with
    | nil => rw [hd]; simpa [rfcData] using h
    | cons p pre ih =>
      obtain ⟨⟨g1, g2, _⟩, g3, g4⟩ := hc p (by simp)
      have hr := unsignedText_rawLine (.inl g1)
      rw [show t = (p.size ++ [13, 10]).map .byte ++ (p.data.map .byte ++ (([13, 10] : Bytes).map .byte ++
        (((pre.map RfcChunk.bytes).flatten ++ size ++ ext ++ [13, 10]).map .byte ++ rest))) by
        rw [hd]; simp [RfcChunk.bytes, g3], chunkT_size]
      unfold expectNextT
      rw [innerNextT_line hr.2.1 (delivers_map c _ _), lineOutcome, if_neg (by simp [hr.1]), if_pos ((validUtf8_iff _).2 hr.2.2)]
      dsimp only
      rw [parseSize (.inl g1) g4]
      dsimp only
      rw [if_neg (by have := List.length_pos_iff.2 g2; omega), chunkT_bytes (by omega), Nat.sub_self, chunkT_end,
        show 2 = ([13, 10] : Bytes).length from rfl, readExactT_delivers (delivers_map c [13, 10] _)]
      dsimp only
      rw [ih (fun q hq => hc q (by simp [hq])) _ rfl]
      simp [rfcData]
  have hr := unsignedText_rawLine (.inl hs)
  obtain ⟨y, rfl, hy⟩ := he.resolve_left hne
  have hcr : ¬ HasCrLf (size ++ 59 :: y) := by
    apply not_hasCrLf_of_no_cr
    simp only [List.mem_append, List.mem_cons, not_or]
    exact ⟨numeral_no_cr hs, by decide, no_cr_of_text hy⟩
  have hnum : fromStrRadix 16 u64Max (size ++ 59 :: y) = none := by
    cases hf : fromStrRadix 16 u64Max (size ++ 59 :: y) with
    | none => rfl
    | some m =>
      have h59 := unsignedText_no_semi ((fromStrRadix_iff (by omega) (by omega)).1 hf).1
      exact absurd (by simp) h59
  have htext : IsText (size ++ 59 :: y) ↔ IsText (59 :: y) := by
    constructor
    · intro h
      have := (isText_split (a := size) (x := 59) (by decide) h).2
      exact isText_join (a := [59]) (isText_of_ascii (by decide)) this
    · exact isText_join hr.2.2
  refine ⟨fun h => key _ ?_, fun h => key _ ?_⟩
  · rw [chunkT_size]
    unfold expectNextT
    rw [innerNextT_line hcr (delivers_map c _ _), lineOutcome, if_neg (by simp), if_pos ((validUtf8_iff _).2 (htext.2 h))]
    dsimp only
    rw [hnum]; rfl
  · rw [chunkT_size]
    unfold expectNextT
    rw [innerNextT_line hcr (delivers_map c _ _), lineOutcome, if_neg (by simp), if_neg (by rw [validUtf8_iff, htext]; exact h)]
    rfl

theorem not_yields_of_fails {τ : Type} [Reader τ] {s : τ} {d bs : Bytes} {e : Err} (h : FailsAfter s d e) : ¬ Yields s bs := by
  intro hy
  have hp : Positive (List.replicate (d.length + 1) 1) := by intro n hn; simp [List.mem_replicate] at hn; omega
  have hno : ∀ {rs : List (Except Err Bytes)} {p : Bytes}, Pieces rs p → .error e ∉ rs := by
    rintro rs p ⟨xs, rfl, _⟩; simp
  rcases h _ hp with ⟨_, _, _, h3⟩ | ⟨rs, later, h1, _⟩
  · simp only [List.length_replicate] at h3; omega
  · have hm : (.error e : Except Err Bytes) ∈ (calls s (List.replicate (d.length + 1) 1)).1 := by rw [h1]; simp
    rcases hy _ hp with ⟨p, k1, _⟩ | ⟨rs', k, k1, k2⟩
    · exact hno k1 hm
    · rw [k1] at hm
      simp only [List.mem_append, List.mem_replicate] at hm
      rcases hm with hm | hm
      · exact hno k2 hm
      · simp at hm

/-- A chunked body that conforms is decoded to its data exactly when no chunk has an extension. -/
theorem C74_decoded_iff_partial (c : Cfg) (n : Option Nat) (u : ρ) (chs : List RfcChunk) (zeros ext : Bytes) (trailer : List Field)
    (rest : List Ev) (hc : ∀ ch ∈ chs, ch.Conforms ∧ ch.data.length < 2 ^ 64) (hz : Numeral 16 zeros 0) (hx : ChunkExt ext)
    (hd : trace u = (rfcChunked chs zeros ext trailer).map .byte ++ rest) :
    Yields (HttpBody.new c (some b!"chunked") n u) (rfcData chs) ↔ (∀ ch ∈ chs, ch.ext = []) ∧ ext = [] := by
  constructor
  · intro hy
    have main : ∀ (pre post : List RfcChunk), chs = pre ++ post → (∀ ch ∈ pre, ch.ext = []) → (∀ ch ∈ chs, ch.ext = []) ∧ ext = [] := by
      intro pre post
      induction post generalizing pre with
      | nil =>
        intro h1 h2
        rw [List.append_nil] at h1
        subst h1
        refine ⟨h2, ?_⟩
        refine Classical.byContradiction fun hne => ?_
        obtain ⟨k1, k2⟩ := C74_extension c n u chs zeros ext 0 ((blockBytes (trailer.map Field.line)).map .byte ++ rest)
          (fun ch h => ⟨(hc ch h).1, h2 ch h, (hc ch h).2⟩) hz hx hne (by rw [hd]; simp [rfcChunked, rfcChunks])
        by_cases ht : IsText ext
        · exact not_yields_of_fails (k1 ht) hy
        · exact not_yields_of_fails (k2 ht) hy
      | cons p post ih =>
        intro h1 h2
        by_cases hp : p.ext = []
        · refine ih (pre ++ [p]) (by simp [h1]) ?_
          intro ch hch
          simp only [List.mem_append, List.mem_singleton] at hch
          rcases hch with h | rfl
          · exact h2 ch h
          · exact hp
        · exfalso
          have hm : ∀ ch ∈ pre, ch ∈ chs := fun ch h => by rw [h1]; simp [h]
          obtain ⟨g1, g2⟩ := hc p (by rw [h1]; simp)
          obtain ⟨k1, k2⟩ := C74_extension c n u pre p.size p.ext _
            ((p.data ++ [13, 10] ++ (post.map RfcChunk.bytes).flatten ++ zeros ++ ext ++ [13, 10] ++
              blockBytes (trailer.map Field.line)).map .byte ++ rest)
            (fun ch h => ⟨(hc ch (hm ch h)).1, h2 ch h, (hc ch (hm ch h)).2⟩) g1.1 g1.2.2 hp (by
              rw [hd, h1]; simp [rfcChunked, rfcChunks, RfcChunk.bytes])
          by_cases ht : IsText p.ext
          · exact not_yields_of_fails (k1 ht) hy
          · exact not_yields_of_fails (k2 ht) hy
    exact main [] chs rfl (by simp)
  · rintro ⟨h1, rfl⟩
    exact (C74_plain_partial c n u chs zeros trailer rest (fun ch h => ⟨(hc ch h).1, h1 ch h, (hc ch h).2⟩) hz hd).1

end

/-- Witness: a chunk with an extension and one without, a trailer field. -/
example : (∀ ch ∈ [(⟨b!"3", b!";q=\"a b\"", b!"abc"⟩ : RfcChunk), ⟨b!"01", [], b!"d"⟩], ch.Conforms ∧ ch.data.length < 2 ^ 64) ∧
    Numeral 16 b!"00" 0 ∧ ChunkExt [] ∧
    trace (Wire.mk [.data b!"3;q=\"a b\"\r\nab", .data b!"c\r\n01\r\nd\r\n00\r\nX: y\r\n\r\nrest"]) =
      (rfcChunked [⟨b!"3", b!";q=\"a b\"", b!"abc"⟩, ⟨b!"01", [], b!"d"⟩] b!"00" [] [⟨b!"X", b!" ", b!"y", []⟩]).map .byte ++
        b!"rest".map .byte := by
  refine ⟨?_, (Numeral.one (.dec 0 (by decide) (by decide))).snoc (.dec 0 (by decide) (by decide)), .inl rfl, rfl⟩
  intro ch hch
  simp only [List.mem_cons, List.not_mem_nil, or_false] at hch
  rcases hch with rfl | rfl
  · exact ⟨⟨.one (.dec 3 (by decide) (by decide)), by decide, .inr ⟨_, rfl, text_of (by decide)⟩⟩, by decide⟩
  · exact ⟨⟨(Numeral.one (.dec 0 (by decide) (by decide))).snoc (.dec 1 (by decide) (by decide)), by decide, .inl rfl⟩, by decide⟩

/-- The property is false: `3;x CRLF abc CRLF 0 CRLF CRLF` is not decoded; and of `0 CRLF X: y CRLF CRLF rest` the trailer
field and the empty line are left before `rest`. -/
theorem C74_chunked_false (c : Cfg) (n : Option Nat) :
    (⟨b!"3", b!";x", b!"abc"⟩ : RfcChunk).Conforms ∧ Numeral 16 b!"0" 0 ∧ (⟨b!"X", b!" ", b!"y", []⟩ : Field).Conforms ∧
    b!"3;x\r\nabc\r\n0\r\n\r\n" = rfcChunked [⟨b!"3", b!";x", b!"abc"⟩] b!"0" [] [] ∧
    ¬ Yields (HttpBody.new c (some b!"chunked") n (Wire.mk [.data b!"3;x\r\nabc\r\n0\r\n\r\n"])) b!"abc" ∧
    b!"0\r\nX: y\r\n\r\n" = rfcChunked [] b!"0" [] [⟨b!"X", b!" ", b!"y", []⟩] ∧
    ∃ s, (calls (HttpBody.new c (some b!"chunked") n (Wire.mk [.data b!"0\r\nX: y\r\n\r\nrest"])) [1]).1 = [.ok []] ∧
      (calls (HttpBody.new c (some b!"chunked") n (Wire.mk [.data b!"0\r\nX: y\r\n\r\nrest"])) [1]).2.under = some s ∧
      trace s = b!"X: y\r\n\r\nrest".map .byte := by
  have h1 : (⟨b!"3", b!";x", b!"abc"⟩ : RfcChunk).Conforms :=
    ⟨.one (.dec 3 (by decide) (by decide)), by decide, .inr ⟨_, rfl, text_of (by decide)⟩⟩
  have hz : Numeral 16 b!"0" 0 := .one (.dec 0 (by decide) (by decide))
  refine ⟨h1, hz, ⟨token_of (by decide) (by decide), blanks_of (by decide), fieldValue_of (by decide) (by decide) (by decide),
    blanks_of (by decide)⟩, rfl, ?_, rfl, ?_⟩
  · intro hy
    have := (C74_decoded_iff_partial c n (Wire.mk [.data b!"3;x\r\nabc\r\n0\r\n\r\n"]) [⟨b!"3", b!";x", b!"abc"⟩] b!"0" [] [] []
      (by simpa using h1) hz (.inl rfl) rfl).1 hy
    simpa using this.1
  · have p := C74_plain_partial c n (Wire.mk [.data b!"0\r\nX: y\r\n\r\nrest"]) [] b!"0" [⟨b!"X", b!" ", b!"y", []⟩]
      (b!"rest".map .byte) (by simp) hz rfl
    have hp : Positive [1] := by intro k hk; simp at hk; omega
    have hend : (calls (HttpBody.new c (some b!"chunked") n (Wire.mk [.data b!"0\r\nX: y\r\n\r\nrest"])) [1]).1 = [.ok []] := by
      rcases p.1 [1] hp with ⟨q, _, _, h⟩ | ⟨rs, k, h, ⟨xs, rfl, h3, h4⟩⟩
      · simp [rfcData] at h
      · have hxs : xs = [] := by
          cases xs with
          | nil => rfl
          | cons x xs => exact absurd h4 (by simp [rfcData, h3 x (by simp)])
        subst hxs
        have hl := congrArg List.length h
        simp [calls] at hl
        rw [h, hl]; rfl
    obtain ⟨s, k1, k2⟩ := p.2 [1] hp (by rw [hend]; simp)
    exact ⟨s, hend, k1, k2⟩

end HttpIo
