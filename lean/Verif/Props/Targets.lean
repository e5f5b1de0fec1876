import Verif.Spec.Targets
import Verif.Props.Listing

/-! C129: which file the file servers take for a request target. -/

namespace HttpIo
open Spec

theorem percentDecoded_self {s t : Bytes} (h : PercentDecoded s t) (hp : (37 : UInt8) ∉ s) : t = s := by
  induction h with
  | nil => rfl
  | plain _ _ ih => rw [ih (fun hm => hp (by simp [hm]))]
  | escape => exact absurd (by simp) hp

theorem pathText_mem {path : Bytes} {cs : List Bytes} (h : PathText path cs) : ∀ c ∈ cs, ∀ b ∈ c, b ∈ path := by
  induction h with
  | last => intro c hc b hb; simp at hc; subst hc; exact hb
  | more _ _ ih =>
    intro c hc b hb
    rcases List.mem_cons.1 hc with rfl | hc
    · simp [hb]
    · simp [ih c hc b hb]

theorem eachDecoded_self {rs cs : List Bytes} (h : EachDecoded rs cs) (hp : ∀ r ∈ rs, (37 : UInt8) ∉ r) : cs = rs := by
  induction h with
  | nil => rfl
  | cons h1 _ ih => rw [percentDecoded_self h1 (hp _ (by simp)), ih (fun r hr => hp r (by simp [hr]))]

/-- Leading slashes make no difference to where a path leads. -/
theorem target_of_path {fs : Fs} {R p : List Bytes} {path : Bytes} : ∀ {cs : List Bytes}, PathText path cs → Leads fs R cs p → ∀ k,
    ∃ cs', TargetText (List.replicate (k + 1) 47 ++ path) cs' ∧ Leads fs R cs' p := by
  induction path with
  | nil => intro cs h hl k; exact ⟨cs, ⟨k + 1, [], rfl, by simp, h⟩, hl⟩
  | cons b path ih =>
    intro cs h hl k
    by_cases hb : b = 47
    · subst hb
      have h' := splitPath_iff.1 h
      rw [splitPath, if_pos rfl] at h'
      rw [← h'] at hl
      have hl' : Leads fs R (splitPath path) p := by
        obtain ⟨n, hn, h⟩ := hl
        exact ⟨n, hn, comes_empty h (.inl (by simp))⟩
      obtain ⟨cs', h1, h2⟩ := ih (splitPath_iff.2 rfl) hl' (k + 1)
      refine ⟨cs', ?_, h2⟩
      rw [show List.replicate (k + 1) 47 ++ 47 :: path = List.replicate (k + 1 + 1) 47 ++ path by
        rw [List.replicate_succ' (n := k + 1)]; simp]
      exact h1
    · exact ⟨cs, ⟨k + 1, _, rfl, by simpa using hb, h⟩, hl⟩

section
variable [CaseMap] {c : Cfg} {σ : Type} [LawfulReader σ] [ZeroReader σ] [LawfulWriter σ]

/-- A target that is a path without escapes: both servers send the file it names. Missing for the full property: targets with an
escape, a query, or scheme and authority, see `C129_escape_false`, `C129_query_false` and `C129_absolute_false`. -/
theorem C129_plain_partial {fs : Fs} {root target : Bytes} {R cs p : List Bytes} (hR : RootAt fs root R) (ht : TargetNames target cs)
    (h0 : (0 : UInt8) ∉ target) (hplain : target.head? = some 47) (hp : (37 : UInt8) ∉ target) (hq : (63 : UInt8) ∉ target)
    (hl : Leads fs R cs p) (content : Bytes) (hf : fs p = some (.file content)) (errText : Err → Bytes)
    (readDir : Fs → List Bytes → List Bytes) :
    GetGives (fileHandler c σ root errText) errText fs target .OK [] content ∧
    ∃ length, Numeral 10 length content.length ∧
      GetGives (listingHandler c σ readDir root errText) errText fs target .OK [(utf8 "content-length", length)] content := by
  obtain ⟨path, raws, h1, h2, h3⟩ := ht
  have htp : target = 47 :: path := by
    generalize hw : (47 : UInt8) :: path = w at h1
    cases h1 with
    | origin => rfl
    | query => exact absurd (by simp) hq
    | absolute =>
      rw [show utf8 "http://" = b!"http://" by decide +kernel] at hplain
      simp at hplain
  have hcs : cs = raws := eachDecoded_self h3 fun r hr hm => hp (by rw [htp]; simp [pathText_mem h2 r hr _ hm])
  rw [hcs] at hl
  obtain ⟨cs', h4, h5⟩ := target_of_path h2 hl 0
  replace h4 : TargetText target cs' := by rw [htp]; exact h4
  refine ⟨?_, C81_file hR h4 h0 h5 content hf readDir errText⟩
  intro s r s1 hd hm hu
  obtain ⟨⟨a, a1, a2, a3, a4, a5⟩, a6⟩ := C66_fetched hR h4 h0 h5 content hf errText s r s1 hd hm hu
  exact ⟨⟨a, .inl a1, a3, a2, a4, a5⟩, a6⟩

end

/-- False: an escape is not decoded. `/%61` names the file `a`; both servers answer that it is not there. -/
theorem C129_escape_false (c : Cfg) : let _ := asciiCase
    let get := b!"GET /%61 HTTP/1.1\r\n\r\n"
    RootAt sampleFs b!"/srv" [b!"srv"] ∧ TargetNames b!"/%61" [b!"a"] ∧ Leads sampleFs [b!"srv"] [b!"a"] [b!"srv", b!"a"] ∧
    sampleFs [b!"srv", b!"a"] = some (.file b!"old") ∧
    ((fileHandler c (Duplex Wire Sink) b!"/srv" fun _ => b!"no").serveOne (fun _ => b!"no") (.ok (requestConn get)) sampleFs).2.1.map sent =
      some b!"HTTP/1.1 500 Internal Server Error\r\n\r\nno" ∧
    ((listingHandler c (Duplex Wire Sink) (fun _ _ => []) b!"/srv" fun _ => b!"no").serveOne (fun _ => b!"no") (.ok (requestConn get))
      sampleFs).2.1.map sent = some b!"HTTP/1.1 500 Internal Server Error\r\n\r\nno" := by
  intro inst get
  refine ⟨sampleFs_root, ⟨b!"%61", [b!"%61"], .origin rfl (by decide), .last (by decide),
    .cons (.escape (.dec 6 (by decide) (by decide)) (.dec 1 (by decide) (by decide)) .nil) .nil⟩, walk_iff.1 (by rfl), by decide, ?_, ?_⟩ <;>
    rcases c with ⟨_ | _⟩ <;> decide +kernel

/-- False: the query is taken for part of the name. -/
theorem C129_query_false (c : Cfg) : let _ := asciiCase
    let get := b!"GET /a?x=1 HTTP/1.1\r\n\r\n"
    RootAt sampleFs b!"/srv" [b!"srv"] ∧ TargetNames b!"/a?x=1" [b!"a"] ∧ Leads sampleFs [b!"srv"] [b!"a"] [b!"srv", b!"a"] ∧
    sampleFs [b!"srv", b!"a"] = some (.file b!"old") ∧
    ((fileHandler c (Duplex Wire Sink) b!"/srv" fun _ => b!"no").serveOne (fun _ => b!"no") (.ok (requestConn get)) sampleFs).2.1.map sent =
      some b!"HTTP/1.1 500 Internal Server Error\r\n\r\nno" ∧
    ((listingHandler c (Duplex Wire Sink) (fun _ _ => []) b!"/srv" fun _ => b!"no").serveOne (fun _ => b!"no") (.ok (requestConn get))
      sampleFs).2.1.map sent = some b!"HTTP/1.1 500 Internal Server Error\r\n\r\nno" := by
  intro inst get
  refine ⟨sampleFs_root, ⟨b!"a", [b!"a"], TargetPath.query (path := b!"/a") (query := b!"x=1") rfl (by decide), .last (by decide),
    .cons (.plain (by decide) .nil) .nil⟩, walk_iff.1 (by rfl), by decide, ?_, ?_⟩ <;>
    rcases c with ⟨_ | _⟩ <;> decide +kernel

/-- False: scheme and authority are taken for names of directories. (RFC 7230, 5.3.2: a server must accept this form.) -/
theorem C129_absolute_false (c : Cfg) : let _ := asciiCase
    let get := b!"GET http://h/a HTTP/1.1\r\n\r\n"
    RootAt sampleFs b!"/srv" [b!"srv"] ∧ TargetNames b!"http://h/a" [b!"a"] ∧ Leads sampleFs [b!"srv"] [b!"a"] [b!"srv", b!"a"] ∧
    sampleFs [b!"srv", b!"a"] = some (.file b!"old") ∧
    ((fileHandler c (Duplex Wire Sink) b!"/srv" fun _ => b!"no").serveOne (fun _ => b!"no") (.ok (requestConn get)) sampleFs).2.1.map sent =
      some b!"HTTP/1.1 500 Internal Server Error\r\n\r\nno" ∧
    ((listingHandler c (Duplex Wire Sink) (fun _ _ => []) b!"/srv" fun _ => b!"no").serveOne (fun _ => b!"no") (.ok (requestConn get))
      sampleFs).2.1.map sent = some b!"HTTP/1.1 500 Internal Server Error\r\n\r\nno" := by
  intro inst get
  refine ⟨sampleFs_root, ⟨b!"a", [b!"a"], ?_, .last (by decide),
    .cons (.plain (by decide) .nil) .nil⟩, walk_iff.1 (by rfl), by decide, ?_, ?_⟩
  · have := TargetPath.absolute (authority := b!"h") (target := b!"/a") (by decide) (by decide) (by decide) rfl (.origin rfl (by decide))
    rwa [show utf8 "http://" ++ b!"h" ++ b!"/a" = b!"http://h/a" by decide +kernel] at this
  · rcases c with ⟨_ | _⟩ <;> decide +kernel
  · rcases c with ⟨_ | _⟩ <;> decide +kernel

/-- Witness for `C129_plain_partial`: extra slashes and dots do not matter. -/
example : TargetNames b!"//./a" [[], b!".", b!"a"] ∧ Leads sampleFs [b!"srv"] [[], b!".", b!"a"] [b!"srv", b!"a"] ∧
    RootAt sampleFs b!"/srv" [b!"srv"] ∧ sampleFs [b!"srv", b!"a"] = some (.file b!"old") :=
  ⟨⟨b!"/./a", [[], b!".", b!"a"], .origin rfl (by decide), splitPath_iff.2 (by decide),
    .cons .nil (.cons (.plain (by decide) .nil) (.cons (.plain (by decide) .nil) .nil))⟩, walk_iff.1 (by rfl), sampleFs_root, by decide⟩

end HttpIo
