import Verif.Spec.Session
import Verif.Props.CutUpload
import Verif.Props.Message
import Verif.Lemmas.Client

/-! C160: what is said over a connection can be told from its bytes. -/

namespace HttpIo
open Spec

theorem sized_unique {a b : Bytes} {n k : Nat} (ha : UnsignedText 16 a n) (hb : UnsignedText 16 b k) (hn : n < 2 ^ 64)
    (hk : k < 2 ^ 64) (h : a = b) : n = k := by
  subst h
  have := parseSize ha hn
  rw [parseSize hb hk] at this
  simpa using this.symm

/-- Chunked bodies that begin the same bytes have the same pieces. -/
theorem chunks_unique {chs chs' : List Chunk} {last last' x x' : Bytes} (h1 : ∀ ch ∈ chs, ch.WellFormed)
    (h2 : ∀ ch ∈ chs', ch.WellFormed) (hl : UnsignedText 16 last 0) (hl' : UnsignedText 16 last' 0)
    (h : chunkedBytes chs last ++ x = chunkedBytes chs' last' ++ x') :
    chs.map Chunk.data = chs'.map Chunk.data ∧ x = x' := by
  have cut : ∀ (ch : Chunk) (rest : List Chunk) (l y : Bytes), ch.WellFormed → chunkedBytes (ch :: rest) l ++ y =
      ch.size ++ [13, 10] ++ (ch.data ++ ([13, 10] ++ (chunkedBytes rest l ++ y))) := by
    intro ch rest l y hc
    simp [chunkedBytes, Chunk.bytes, hc.2]
  have last_cut : ∀ (l y : Bytes), chunkedBytes [] l ++ y = l ++ [13, 10] ++ y := by
    intro l y; simp [chunkedBytes]
  induction chs generalizing chs' with
  | nil =>
    cases chs' with
    | nil =>
      rw [last_cut, last_cut] at h
      exact ⟨rfl, (rawLine_unique (unsignedText_rawLine hl) (unsignedText_rawLine hl') h).2⟩
    | cons ch chs' =>
      obtain ⟨⟨g1, g2, g3, _⟩, _⟩ := h2 ch (by simp)
      rw [last_cut, cut _ _ _ _ (h2 ch (by simp))] at h
      have e := (rawLine_unique (unsignedText_rawLine hl) (unsignedText_rawLine g1) h).1
      have := sized_unique hl g1 (by omega) g3 e
      exact absurd (List.length_eq_zero_iff.1 this.symm) g2
  | cons ch chs ih =>
    obtain ⟨⟨g1, g2, g3, _⟩, _⟩ := h1 ch (by simp)
    rw [cut _ _ _ _ (h1 ch (by simp))] at h
    cases chs' with
    | nil =>
      rw [last_cut] at h
      have e := (rawLine_unique (unsignedText_rawLine g1) (unsignedText_rawLine hl') h).1
      have := sized_unique g1 hl' g3 (by omega) e
      exact absurd (List.length_eq_zero_iff.1 this) g2
    | cons ch' chs' =>
      obtain ⟨⟨k1, k2, k3, _⟩, _⟩ := h2 ch' (by simp)
      rw [cut _ _ _ _ (h2 ch' (by simp))] at h
      obtain ⟨e, e'⟩ := rawLine_unique (unsignedText_rawLine g1) (unsignedText_rawLine k1) h
      obtain ⟨e1, e2⟩ := List.append_inj e' (sized_unique g1 k1 g3 k3 e)
      obtain ⟨f1, f2⟩ := ih (chs' := chs') (fun c hc => h1 c (by simp [hc])) (fun c hc => h2 c (by simp [hc])) (by simpa using e2)
      exact ⟨by simp [e1, f1], f2⟩

theorem requestLine_rawLine {m : HttpMethod} {target : Bytes} (ht : SendableTarget target) :
    RawLine (utf8 (methodName m) ++ [32] ++ target ++ [32] ++ utf8 "HTTP/1.1") := by
  rw [utf8_http11]
  obtain ⟨_, t2, _, _, t5⟩ := ht
  have hmt : IsText (utf8 (methodName m)) := by
    rw [methodName_bytes]; exact isText_ascii (by cases m <;> decide)
  have hmc : ¬ HasCrLf (utf8 (methodName m)) := by
    rw [methodName_bytes]; unfold HasCrLf; cases m <;> decide
  refine ⟨by simp, ?_, ?_⟩
  · rw [show utf8 (methodName m) ++ [32] ++ target ++ [32] ++ b!"HTTP/1.1" =
      utf8 (methodName m) ++ 32 :: (target ++ 32 :: b!"HTTP/1.1") by simp]
    exact not_hasCrLf_join (by decide) (by decide) hmc
      (not_hasCrLf_join (by decide) (by decide) t5 (by unfold HasCrLf; decide))
  · exact isText_append (isText_append (isText_append (isText_append hmt (isText_ascii (by decide))) t2)
      (isText_ascii (by decide))) (isText_ascii (by decide))

/-- Of two words that are followed by a space and have none, … -/
theorem word_unique {a b x y : Bytes} (ha : (32 : UInt8) ∉ a) (hb : (32 : UInt8) ∉ b) (h : a ++ 32 :: x = b ++ 32 :: y) :
    a = b ∧ x = y := by
  induction a generalizing b with
  | nil =>
    cases b with
    | nil => simpa using h
    | cons c b => simp only [List.nil_append, List.cons_append, List.cons.injEq] at h; exact absurd (by simp [h.1]) hb
  | cons c a ih =>
    cases b with
    | nil => simp only [List.nil_append, List.cons_append, List.cons.injEq] at h; exact absurd (by simp [h.1]) ha
    | cons c' b =>
      simp only [List.cons_append, List.cons.injEq] at h
      obtain ⟨e1, e2⟩ := ih (fun hc => ha (by simp [hc])) (fun hc => hb (by simp [hc])) h.2
      exact ⟨by rw [h.1, e1], e2⟩

section
variable [CaseMap]

/-- Heads that begin the same bytes are the same. -/
theorem requestHead_unique {m m' : HttpMethod} {t t' : Bytes} {hs hs' : List (Bytes × Bytes)} {x x' : Bytes}
    (ht : SendableTarget t) (ht' : SendableTarget t') (hh : SendableHeaders hs) (hh' : SendableHeaders hs')
    (h : requestHead m t hs ++ x = requestHead m' t' hs' ++ x') : m = m' ∧ t = t' ∧ hs = hs' ∧ x = x' := by
  have e : utf8 (methodName m) ++ [32] ++ t ++ [32] ++ utf8 "HTTP/1.1" ++ [13, 10] ++ (headerText hs ++ [13, 10] ++ x) =
      utf8 (methodName m') ++ [32] ++ t' ++ [32] ++ utf8 "HTTP/1.1" ++ [13, 10] ++ (headerText hs' ++ [13, 10] ++ x') := by
    unfold requestHead at h
    simpa using h
  obtain ⟨e1, e2⟩ := rawLine_unique (requestLine_rawLine ht) (requestLine_rawLine ht') e
  have hm : ∀ m : HttpMethod, (32 : UInt8) ∉ utf8 (methodName m) := by
    intro m; rw [methodName_bytes]; cases m <;> decide
  obtain ⟨f1, f2⟩ := word_unique (hm m) (hm m') (x := t ++ [32] ++ utf8 "HTTP/1.1") (y := t' ++ [32] ++ utf8 "HTTP/1.1")
    (by simpa using e1)
  obtain ⟨f3, _⟩ := word_unique ht.2.2.1 ht'.2.2.1 (x := utf8 "HTTP/1.1") (y := utf8 "HTTP/1.1") (by simpa using f2)
  have hmm : m = m' := by
    rw [methodName_bytes, methodName_bytes] at f1
    revert f1
    cases m <;> cases m' <;> decide
  have r1 := C14_roundtrip ⟨true⟩ (⟨(headerText hs ++ [13, 10] ++ x).map .byte⟩ : Evs) ⟨hs⟩ (x.map .byte) hh.1 hh.2.1 hh.2.2 (by
    show Delivers _ ((headerText hs ++ [13, 10] ++ x).map .byte) _ _
    rw [List.map_append]; exact delivers_map _ _ _)
  have r2 := C14_roundtrip ⟨true⟩ (⟨(headerText hs' ++ [13, 10] ++ x').map .byte⟩ : Evs) ⟨hs'⟩ (x'.map .byte) hh'.1 hh'.2.1 hh'.2.2 (by
    show Delivers _ ((headerText hs' ++ [13, 10] ++ x').map .byte) _ _
    rw [List.map_append]; exact delivers_map _ _ _)
  rw [e2] at r1
  have g1 := r1.1.symm.trans r2.1
  have g2 := r1.2.symm.trans r2.2
  simp only [Res.ok.injEq, HttpHeaders.mk.injEq] at g1
  refine ⟨hmm, f3, g1, ?_⟩
  have := congrArg bytesOf g2
  rw [show x.map Ev.byte = x.map .byte ++ [] by simp, show x'.map Ev.byte = x'.map .byte ++ [] by simp, bytesOf_map, bytesOf_map] at this
  simpa [bytesOf] using this

omit [CaseMap] in
/-- What one request puts on the connection. -/
theorem session_sent {c : Cfg} {σ τ : Type} [LawfulWriter σ] {s d : σ} {o o' : OutgoingRequest c σ} {r : HttpRequest c τ}
    {cs : List WCall} (hv : r.version = ⟨1, 1⟩) (hlen : ∀ buf ∈ written cs, buf.length < 2 ^ 64)
    (h : r.serialize (BufWriter.new c s) = .ok o) (hp : perform o cs = (true, o')) (hc : o'.complete = .ok d) :
    ∃ body, sent d = sent s ++ requestHead r.method r.uri r.headers.entries ++ body ∧
      ((r.method = .Delete ∨ r.method = .Post ∨ r.method = .Put) → ∃ chs, ChunksFor chs (written cs) ∧
        body = chunkedBytes chs (utf8 "0") ++ [13, 10]) ∧
      (¬ (r.method = .Delete ∨ r.method = .Post ∨ r.method = .Put) → written cs = [] ∧ body = []) := by
  obtain ⟨g1, g2⟩ := C18_serialized r s hv o h
  obtain ⟨_, k1, k2⟩ := sent_request hlen hp hc
  cases o with
  | WithBody b =>
    obtain ⟨chs, f1, f2⟩ := k2 b rfl
    have hm := g2.1 ⟨b, rfl⟩
    refine ⟨chunkedBytes chs (utf8 "0") ++ [13, 10], ?_, fun _ => ⟨chs, f1, rfl⟩, fun h => absurd hm h⟩
    rw [f2, show utf8 "0" = b!"0" by decide +kernel, show sent b.socket = outgoingSent (.WithBody b) from rfl, g1]
    simp
  | NoBody s0 =>
    obtain ⟨f1, f2⟩ := k1 s0 rfl
    have hm : ¬ (r.method = .Delete ∨ r.method = .Post ∨ r.method = .Put) := fun h => by
      obtain ⟨b, hb⟩ := g2.2 h; simp at hb
    refine ⟨[], ?_, fun h => absurd h hm, fun _ => ⟨f2, rfl⟩⟩
    rw [f1, show sent s0 = outgoingSent (.NoBody (c := c) s0) from rfl, g1]; simp

omit [CaseMap] in
theorem session_grows {c : Cfg} {σ : Type} [LawfulWriter σ] {s d : σ} {l : List Meant} (h : Session c s l d) :
    ∃ x, sent d = sent s ++ x := by
  induction h with
  | done => exact ⟨[], by simp⟩
  | request r cs hv hlen h hp hc hs _ ih =>
    obtain ⟨b, hb, _⟩ := session_sent hv hlen h hp hc
    obtain ⟨x, hx⟩ := ih
    exact ⟨requestHead r.method r.uri r.headers.entries ++ b ++ x, by rw [hx, hs, hb]; simp⟩

/-- Full statement: what was sent over a connection determines which requests were made: if two programs send the same bytes, or
one the beginning of what the other does, they have made the same requests, with the same pieces of bodies, or one the first of
those of the other. What holds: it does if no part of a request has in it what separates the parts. Missing: other targets and
header values, see `C160_split_false`. -/
theorem C160_decodable_partial {c c' : Cfg} {σ τ : Type} [LawfulWriter σ] [LawfulWriter τ] {s d : σ} {s' d' : τ} {l l' : List Meant}
    (h : Session c s l d) (h' : Session c' s' l' d') (hl : ∀ m ∈ l, m.Sendable) (hl' : ∀ m ∈ l', m.Sendable)
    (hs : sent s = sent s') (hd : sent d <+: sent d') : l <+: l' := by
  induction h generalizing s' l' with
  | done => exact List.nil_prefix
  | @request _ s0 d0 d1 d2 o o' rest r cs hv hlen h hp hc hsame hrest ih =>
    obtain ⟨b, hb, b1, b2⟩ := session_sent hv hlen h hp hc
    obtain ⟨x, hx⟩ := session_grows hrest
    cases h' with
    | done =>
      exfalso
      have hlen' := hd.length_le
      rw [hx, hsame, hb, hs] at hlen'
      simp only [List.length_append] at hlen'
      have : 0 < (requestHead r.method r.uri r.headers.entries).length := by unfold requestHead; simp; omega
      omega
    | @request _ _ e0 e1 e2 q q' rest' r' cs' hv' hlen' h' hp' hc' hsame' hrest' =>
      obtain ⟨b', hb', b1', b2'⟩ := session_sent hv' hlen' h' hp' hc'
      obtain ⟨x', hx'⟩ := session_grows hrest'
      obtain ⟨z, hz⟩ := hd
      obtain ⟨p1, p2⟩ := hl _ List.mem_cons_self
      obtain ⟨p1', p2'⟩ := hl' _ List.mem_cons_self
      dsimp only at p1 p2 p1' p2'
      rw [hx, hsame, hb, hx', hsame', hb', hs] at hz
      simp only [List.append_assoc, List.append_cancel_left_eq] at hz
      obtain ⟨w1, w2, w3, w4⟩ := requestHead_unique p1 p1' p2 p2' hz
      have key : (written cs).filter (· ≠ []) = (written cs').filter (· ≠ []) ∧ b = b' := by
        by_cases hm : r.method = .Delete ∨ r.method = .Post ∨ r.method = .Put
        · obtain ⟨chs, v1, v2⟩ := b1 hm
          obtain ⟨chs', v1', v2'⟩ := b1' (by rw [← w1]; exact hm)
          rw [v2, v2'] at w4
          have hz0 : UnsignedText 16 (utf8 "0") 0 := by
            rw [show utf8 "0" = b!"0" by decide +kernel]
            exact ((fromStrRadix_iff (r := 16) (max := u64Max) (by omega) (by omega)).1 (by decide +kernel)).1
          obtain ⟨u1, u2⟩ := chunks_unique v1.1 v1'.1 hz0 hz0 (x := [13, 10] ++ (x ++ z)) (x' := [13, 10] ++ x') (by simpa using w4)
          refine ⟨by rw [← v1.2, ← v1'.2, u1], ?_⟩
          have : b ++ (x ++ z) = b' ++ (x ++ z) := by
            have : x' = x ++ z := by simpa using u2.symm
            rw [v2, v2', w4, this]
          exact List.append_cancel_right this
        · obtain ⟨v1, v2⟩ := b2 hm
          obtain ⟨v1', v2'⟩ := b2' (by rw [← w1]; exact hm)
          rw [v1, v1', v2, v2']; exact ⟨rfl, rfl⟩
      obtain ⟨k1, rfl⟩ := key
      have hrec := ih hrest' (fun m hm => hl m (by simp [hm])) (fun m hm => hl' m (by simp [hm]))
        (by rw [hsame, hsame', hb, hb', hs, w1, w2, w3]) ⟨z, by rw [hx, hx', hsame, hsame', hb, hb', hs, w1, w2, w3]; simp [List.append_cancel_left w4]⟩
      rw [w1, w2, w3, k1]
      exact (List.prefix_cons_inj _).2 hrec

/-- … so if the bytes are the same, the requests are. -/
theorem C160_same_partial {c c' : Cfg} {σ τ : Type} [LawfulWriter σ] [LawfulWriter τ] {s d : σ} {s' d' : τ} {l l' : List Meant}
    (h : Session c s l d) (h' : Session c' s' l' d') (hl : ∀ m ∈ l, m.Sendable) (hl' : ∀ m ∈ l', m.Sendable)
    (hs : sent s = sent s') (hd : sent d = sent d') : l = l' := by
  have h1 := C160_decodable_partial h h' hl hl' hs (by rw [hd]; exact List.prefix_refl _)
  have h2 := C160_decodable_partial h' h hl' hl hs.symm (by rw [hd]; exact List.prefix_refl _)
  exact h1.eq_of_length (Nat.le_antisymm h1.length_le h2.length_le)

end

/-- Requests with no headers but these, made one after the other; what happens in between leaves the connection as it is. -/
def makeAll (c : Cfg) : List (HttpMethod × Bytes × HttpHeaders × List WCall) → Sink → Option Sink
  | [], s => some s
  | (m, target, headers, calls) :: rest, s =>
    match HttpRequest.serialize { HttpRequest.new c m target with headers } (BufWriter.new c s) with
    | .error _ => none
    | .ok o =>
      match perform o calls with
      | (false, _) => none
      | (true, o) =>
        match o.complete with
        | .error _ => none
        | .ok s => makeAll c rest s

theorem makeAll_session {c : Cfg} {l : List (HttpMethod × Bytes × HttpHeaders × List WCall)} {s d : Sink}
    (h : makeAll c l s = some d) (hlen : ∀ q ∈ l, ∀ buf ∈ written q.2.2.2, buf.length < 2 ^ 64) (ht : ∀ q ∈ l, q.2.1 ≠ []) :
    Session c s (l.map fun q => ⟨q.1, q.2.1, q.2.2.1.entries, (written q.2.2.2).filter (· ≠ [])⟩) d := by
  induction l generalizing s with
  | nil => simp only [makeAll, Option.some.injEq] at h; subst h; exact .done _
  | cons q l ih =>
    obtain ⟨m, target, headers, calls⟩ := q
    unfold makeAll at h
    rcases h1 : HttpRequest.serialize { HttpRequest.new c m target with headers } (BufWriter.new c s) with _ | o <;> rw [h1] at h
    · simp at h
    · dsimp only at h
      rcases h2 : perform o calls with ⟨_ | _, o'⟩ <;> rw [h2] at h
      · simp at h
      · dsimp only at h
        rcases h3 : o'.complete with _ | d1 <;> rw [h3] at h
        · simp at h
        · have := Session.request { HttpRequest.new c m target with headers } calls rfl (hlen _ List.mem_cons_self) h1 h2 h3 rfl
            (ih h (fun q hq => hlen q (by simp [hq])) (fun q hq => ht q (by simp [hq])))
          have hne : target.isEmpty = false := by simpa using ht _ List.mem_cons_self
          simpa [HttpRequest.new, hne] using this

theorem makeAll_key (c : Cfg) : let _ := asciiCase
    let a := makeAll c [(.Get, b!"/", HttpHeaders.new.insert b!"x" b!"1\r\n\r\nGET /b HTTP/1.1", [])] ⟨[], 0, []⟩
    let b := makeAll c [(.Get, b!"/", HttpHeaders.new.insert b!"x" b!"1", []), (.Get, b!"/b", HttpHeaders.new, [])] ⟨[], 0, []⟩
    (match a, b with | some a, some b => sent a == sent b | _, _ => false) = true := by
  rcases c with ⟨_ | _⟩ <;> decide +kernel

/-- False: one request, with CR LF in the value of a header, is the same bytes as two. -/
theorem C160_split_false (c : Cfg) : let _ := asciiCase
    ∃ (s d d' : Sink) (l l' : List Meant), sent s = [] ∧ Session c s l d ∧ Session c s l' d' ∧ sent d = sent d' ∧
      l.length = 1 ∧ l'.length = 2 := by
  have key := makeAll_key c
  intro _
  dsimp only at key
  split at key
  · rename_i a b ha hb
    refine ⟨⟨[], 0, []⟩, a, b, _, _, rfl, makeAll_session ha (by simp [written]) (by simp),
      makeAll_session hb (by simp [written]) (by simp), eq_of_beq key, rfl, rfl⟩
  · simp at key

/-- Witness for `C160_decodable_partial`: two requests, one with a body in two pieces that has a request in it. -/
example (c : Cfg) : let _ := asciiCase
    let l : List (HttpMethod × Bytes × HttpHeaders × List WCall) :=
      [(.Put, b!"/a", HttpHeaders.new.insert b!"X" b!"1", [.write b!"GET /b", .flush, .write b!" HTTP/1.1\r\n\r\n"]),
        (.Get, b!"/b", HttpHeaders.new, [])]
    let l' : List Meant := [⟨.Put, b!"/a", [(b!"x", b!"1")], [b!"GET /b", b!" HTTP/1.1\r\n\r\n"]⟩, ⟨.Get, b!"/b", [], []⟩]
    (∃ d, Session c (⟨[], 0, [.accept 3]⟩ : Sink) l' d ∧ sent d = b!"PUT /a HTTP/1.1\r\nx: 1\r\n\r\n6\r\nGET /b\r\nd\r\n" ++
      b!" HTTP/1.1\r\n\r\n\r\n0\r\n\r\nGET /b HTTP/1.1\r\n\r\n") ∧ ∀ m ∈ l', m.Sendable := by
  intro _ l l'
  have key : (makeAll c l ⟨[], 0, [.accept 3]⟩).map sent = some (b!"PUT /a HTTP/1.1\r\nx: 1\r\n\r\n6\r\nGET /b\r\nd\r\n" ++
      b!" HTTP/1.1\r\n\r\n\r\n0\r\n\r\nGET /b HTTP/1.1\r\n\r\n") := by
    rcases c with ⟨_ | _⟩ <;> decide +kernel
  refine ⟨?_, ?_⟩
  · cases h : makeAll c l ⟨[], 0, [.accept 3]⟩ with
    | none => rw [h] at key; simp at key
    | some d =>
      rw [h] at key
      refine ⟨d, ?_, by simpa using key⟩
      have := makeAll_session h (by decide) (by decide)
      exact this
  · have ht : ∀ t : Bytes, (t = b!"/a" ∨ t = b!"/b") → SendableTarget t := by
      rintro t (rfl | rfl) <;> exact ⟨by decide, isText_ascii (by decide), by decide, by decide, by unfold HasCrLf; decide⟩
    intro m hm
    simp only [l', List.mem_cons, List.not_mem_nil, or_false] at hm
    rcases hm with rfl | rfl
    · refine ⟨ht _ (.inl rfl), by unfold SortedNames; decide, by decide, ?_⟩
      intro kv hkv
      simp only [List.mem_cons, List.not_mem_nil, or_false] at hkv
      subst hkv
      exact ⟨isText_ascii (by decide), by decide, by unfold HasCrLf; decide, by simp [StartsBlank], isText_ascii (by decide),
        by unfold HasCrLf; decide⟩
    · exact ⟨ht _ (.inr rfl), by unfold SortedNames; decide, by simp, by simp⟩

end HttpIo
