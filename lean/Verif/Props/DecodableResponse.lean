import Verif.Props.Decodable
import Verif.Props.Server

/-! C163: what a server answers can be told from its bytes. -/

namespace HttpIo
open Spec

theorem digit_unique {a b : Nat} (ha : a < 10) (hb : b < 10) (h : UInt8.ofNat (48 + a) = UInt8.ofNat (48 + b)) : a = b := by
  have := congrArg UInt8.toNat h
  simp only [UInt8.toNat_ofNat'] at this
  omega

theorem statusLine_rawLine {a b : Nat} (ha : a < 10) (hb : b < 10) (s : HttpStatus) :
    RawLine (utf8 "HTTP/" ++ [UInt8.ofNat (48 + a), 46, UInt8.ofNat (48 + b), 32] ++ s.display) := by
  have h5 : utf8 "HTTP/" = b!"HTTP/" := by decide +kernel
  have hd : ∀ n : Nat, n < 10 → isAscii [UInt8.ofNat (48 + n)] = true ∧ UInt8.ofNat (48 + n) ≠ 13 := by decide
  rw [h5]
  have e : b!"HTTP/" ++ [UInt8.ofNat (48 + a), 46, UInt8.ofNat (48 + b), 32] ++ s.display =
      (b!"HTTP/" ++ [UInt8.ofNat (48 + a), 46, UInt8.ofNat (48 + b)]) ++ 32 :: s.display := by simp
  refine ⟨by simp, ?_, ?_⟩
  · rw [e]
    refine not_hasCrLf_join (by decide) (by decide) ?_ (status_display_noCrLf s)
    have h13 : (13 : UInt8) ∉ b!"HTTP/" ++ [UInt8.ofNat (48 + a), 46, UInt8.ofNat (48 + b)] := by
      have h1 := (hd a ha).2.symm
      have h2 := (hd b hb).2.symm
      simp only [List.mem_append, not_or]
      refine ⟨by decide, ?_⟩
      intro hm
      simp only [List.mem_cons, List.not_mem_nil, or_false] at hm
      rcases hm with hm | hm | hm
      · exact h1 hm
      · exact absurd hm (by decide)
      · exact h2 hm
    rintro ⟨p, q, hpq⟩
    apply h13; rw [← hpq]; simp
  · refine isText_append (isText_append (isText_ascii (by decide)) (isText_ascii ?_)) (isText_ascii (status_display_valid s))
    have h1 := (hd a ha).1
    have h2 := (hd b hb).1
    simp only [isAscii, List.all_cons, List.all_nil, Bool.and_true] at h1 h2 ⊢
    rw [h1, h2]; decide

section
variable [CaseMap]

/-- Heads that begin the same bytes are the same: the version, the code, the headers. -/
theorem versionedHead_unique {a b a' b' : Nat} {s s' : HttpStatus} {hs hs' : List (Bytes × Bytes)} {x x' : Bytes}
    (ha : a < 10) (hb : b < 10) (ha' : a' < 10) (hb' : b' < 10) (hh : SendableHeaders hs) (hh' : SendableHeaders hs')
    (h : versionedHead a b s.display hs ++ x = versionedHead a' b' s'.display hs' ++ x') :
    a = a' ∧ b = b' ∧ s.toCode = s'.toCode ∧ hs = hs' ∧ x = x' := by
  have e : utf8 "HTTP/" ++ [UInt8.ofNat (48 + a), 46, UInt8.ofNat (48 + b), 32] ++ s.display ++ [13, 10] ++ (headerText hs ++ [13, 10] ++ x) =
      utf8 "HTTP/" ++ [UInt8.ofNat (48 + a'), 46, UInt8.ofNat (48 + b'), 32] ++ s'.display ++ [13, 10] ++ (headerText hs' ++ [13, 10] ++ x') := by
    unfold versionedHead at h
    simpa using h
  obtain ⟨e1, e2⟩ := rawLine_unique (statusLine_rawLine ha hb s) (statusLine_rawLine ha' hb' s') e
  simp only [List.append_assoc, List.append_cancel_left_eq, List.cons_append, List.nil_append, List.cons.injEq, true_and] at e1
  obtain ⟨v1, v2, v3⟩ := e1
  have hc : s.toCode = s'.toCode := by
    obtain ⟨u, hu, hu'⟩ := C02_display_parse_code s
    obtain ⟨w, hw, hw'⟩ := C02_display_parse_code s'
    rw [v3, hw] at hu
    simp only [Except.ok.injEq, Res.ok.injEq] at hu
    rw [← hu', ← hw', hu]
  have r1 := C14_roundtrip ⟨true⟩ (⟨(headerText hs ++ [13, 10] ++ x).map .byte⟩ : Evs) ⟨hs⟩ (x.map .byte) hh.1 hh.2.1 hh.2.2 (by
    show Delivers _ ((headerText hs ++ [13, 10] ++ x).map .byte) _ _
    rw [List.map_append]; exact delivers_map _ _ _)
  have r2 := C14_roundtrip ⟨true⟩ (⟨(headerText hs' ++ [13, 10] ++ x').map .byte⟩ : Evs) ⟨hs'⟩ (x'.map .byte) hh'.1 hh'.2.1 hh'.2.2 (by
    show Delivers _ ((headerText hs' ++ [13, 10] ++ x').map .byte) _ _
    rw [List.map_append]; exact delivers_map _ _ _)
  rw [e2] at r1
  have g1 := r1.1.symm.trans r2.1
  have g2 := r1.2.symm.trans r2.2
  simp only [Res.ok.injEq, HttpHeaders.mk.injEq] at g1
  refine ⟨digit_unique ha ha' v1, digit_unique hb hb' v2, hc, g1, ?_⟩
  have := congrArg bytesOf g2
  rw [show x.map Ev.byte = x.map .byte ++ [] by simp, show x'.map Ev.byte = x'.map .byte ++ [] by simp, bytesOf_map, bytesOf_map] at this
  simpa [bytesOf] using this

variable {c c' : Cfg} {η σ ρ ε η' σ' ρ' ε' : Type} [LawfulReader σ] [ZeroReader σ] [LawfulReader ρ] [ZeroReader ρ] [LawfulWriter σ]
  [LawfulReader σ'] [ZeroReader σ'] [LawfulReader ρ'] [ZeroReader ρ'] [LawfulWriter σ']

/-- Two servers, whatever their handlers, whatever was asked of them and whatever their connections are: if each says that
it served its request, and what the first wrote begins what the second wrote, then their answers have the same version, the
same status code and the same headers, and the body of the first begins the body of the second. In particular the same bytes
are the same answer. "Wrote" is as in `C52_written`. The headers must be sendable: `C163_answer_false`. -/
theorem C163_answer_partial (h : Handler c η σ ρ ε) (h' : Handler c' η' σ' ρ' ε') (errText errText' : Err → Bytes)
    (s : σ) (s' : σ') (self : η) (self' : η') (r : ServerResponse c ρ) (r' : ServerResponse c' ρ') (d : σ) (d' : σ') (w w' : Bytes)
    (hr : (h.serveOneInner errText s self).1 = .ok r ∨ (h.serveOneInner errText s self).1 = .err r)
    (hr' : (h'.serveOneInner errText' s' self').1 = .ok r' ∨ (h'.serveOneInner errText' s' self').1 = .err r')
    (hv : r.version.major < 10 ∧ r.version.minor < 10) (hv' : r'.version.major < 10 ∧ r'.version.minor < 10)
    (hh : SendableHeaders r.headers.entries) (hh' : SendableHeaders r'.headers.entries)
    (hok : (h.serveOne errText (.ok s) self).1 = .ok ()) (hok' : (h'.serveOne errText' (.ok s') self').1 = .ok ())
    (hd : (h.serveOne errText (.ok s) self).2.1 = some d) (hd' : (h'.serveOne errText' (.ok s') self').2.1 = some d')
    (hw : sent d = sent (h.serveOneInner errText s self).2.1 ++ w)
    (hw' : sent d' = sent (h'.serveOneInner errText' s' self').2.1 ++ w')
    (hpre : w <+: w') :
    r.version = r'.version ∧ r.status.toCode = r'.status.toCode ∧ r.headers.entries = r'.headers.entries ∧
    ∃ bs bs' t t', Delivers c (trace r.body) bs t ∧ Ended c t ∧ Delivers c' (trace r'.body) bs' t' ∧ Ended c' t' ∧
      bs <+: bs' ∧ (w = w' → bs = bs') := by
  obtain ⟨x, hx, k⟩ := C52_written h errText s self
  obtain ⟨x', hx', k'⟩ := C52_written h' errText' s' self'
  rw [hd] at hx
  rw [hd'] at hx'
  obtain rfl := Option.some.inj hx
  obtain rfl := Option.some.inj hx'
  rcases k with ⟨k, _⟩ | ⟨q, hq, k⟩
  · rw [hok] at k; cases k
  rcases k' with ⟨k', _⟩ | ⟨q', hq', k'⟩
  · rw [hok'] at k'; cases k'
  have hqr : q = r := by
    rcases hr with hr | hr <;> rw [hr] at hq <;> simpa [eq_comm] using hq
  have hqr' : q' = r' := by
    rcases hr' with hr' | hr' <;> rw [hr'] at hq' <;> simpa [eq_comm] using hq'
  subst hqr hqr'
  rcases k hv.1 hv.2 with ⟨_, bs, t, k1, k2, k3⟩ | ⟨e, k, _⟩
  case inr => rw [hok] at k; cases k
  rcases k' hv'.1 hv'.2 with ⟨_, bs', t', k1', k2', k3'⟩ | ⟨e, k', _⟩
  case inr => rw [hok'] at k'; cases k'
  rw [hw, List.append_assoc, List.append_cancel_left_eq] at k3
  rw [hw', List.append_assoc, List.append_cancel_left_eq] at k3'
  obtain ⟨y, hy⟩ := hpre
  rw [k3, k3', List.append_assoc] at hy
  obtain ⟨u1, u2, u3, u4, u5⟩ := versionedHead_unique hv.1 hv.2 hv'.1 hv'.2 hh hh' hy
  refine ⟨?_, u3, u4, bs, bs', t, t', k1, k2, k1', k2', ⟨y, u5⟩, ?_⟩
  · cases hq1 : q.version; cases hq2 : q'.version
    rw [hq1, hq2] at u1 u2
    simp_all
  · intro hww
    rw [k3, k3'] at hww
    exact (versionedHead_unique hv.1 hv.2 hv'.1 hv'.2 hh hh' hww).2.2.2.2

/-- If moreover each answer says how long its body is and is right about it, one does not begin the other unless it is the
other: such answers can be told apart without knowing where the connection ends. -/
theorem C163_measured (h : Handler c η σ ρ ε) (h' : Handler c' η' σ' ρ' ε') (errText errText' : Err → Bytes)
    (s : σ) (s' : σ') (self : η) (self' : η') (r : ServerResponse c ρ) (r' : ServerResponse c' ρ') (d : σ) (d' : σ') (w w' : Bytes)
    (hr : (h.serveOneInner errText s self).1 = .ok r ∨ (h.serveOneInner errText s self).1 = .err r)
    (hr' : (h'.serveOneInner errText' s' self').1 = .ok r' ∨ (h'.serveOneInner errText' s' self').1 = .err r')
    (hv : r.version.major < 10 ∧ r.version.minor < 10) (hv' : r'.version.major < 10 ∧ r'.version.minor < 10)
    (hh : SendableHeaders r.headers.entries) (hh' : SendableHeaders r'.headers.entries)
    (hok : (h.serveOne errText (.ok s) self).1 = .ok ()) (hok' : (h'.serveOne errText' (.ok s') self').1 = .ok ())
    (hd : (h.serveOne errText (.ok s) self).2.1 = some d) (hd' : (h'.serveOne errText' (.ok s') self').2.1 = some d')
    (hw : sent d = sent (h.serveOneInner errText s self).2.1 ++ w)
    (hw' : sent d' = sent (h'.serveOneInner errText' s' self').2.1 ++ w')
    {v v' : Bytes} {n n' : Nat}
    (hm : (b!"content-length", v) ∈ r.headers.entries) (hm' : (b!"content-length", v') ∈ r'.headers.entries)
    (hl : LengthText v n) (hl' : LengthText v' n')
    (ht : ∀ bs t, Delivers c (trace r.body) bs t → Ended c t → bs.length = n)
    (ht' : ∀ bs t, Delivers c' (trace r'.body) bs t → Ended c' t → bs.length = n')
    (hpre : w <+: w') : w = w' := by
  obtain ⟨_, _, he, bs, bs', t, t', k1, k2, k1', k2', hb, _⟩ :=
    C163_answer_partial h h' errText errText' s s' self self' r r' d d' w w' hr hr' hv hv' hh hh' hok hok' hd hd' hw hw' hpre
  obtain ⟨y, hy⟩ := hpre
  have hvv : v = v' := by
    rw [← he] at hm'
    have h1 := (mapGet_iff hh.1 _ _).2 hm
    rw [(mapGet_iff hh.1 _ _).2 hm'] at h1
    simpa using h1.symm
  have hnn : n = n' := by
    subst hvv
    have e1 := lengthText_iff.2 hl
    rw [lengthText_iff.2 hl'] at e1
    simpa using e1.symm
  have hbb : bs = bs' := hb.eq_of_length (by rw [ht _ _ k1 k2, ht' _ _ k1' k2', hnn])
  obtain ⟨x, hx, k⟩ := C52_written h errText s self
  obtain ⟨x', hx', k'⟩ := C52_written h' errText' s' self'
  rw [hd] at hx
  rw [hd'] at hx'
  obtain rfl := Option.some.inj hx
  obtain rfl := Option.some.inj hx'
  rcases k with ⟨k, _⟩ | ⟨q, hq, k⟩
  · rw [hok] at k; cases k
  rcases k' with ⟨k', _⟩ | ⟨q', hq', k'⟩
  · rw [hok'] at k'; cases k'
  have hqr : q = r := by
    rcases hr with hr | hr <;> rw [hr] at hq <;> simpa [eq_comm] using hq
  have hqr' : q' = r' := by
    rcases hr' with hr' | hr' <;> rw [hr'] at hq' <;> simpa [eq_comm] using hq'
  subst hqr hqr'
  rcases k hv.1 hv.2 with ⟨_, b1, u, l1, l2, l3⟩ | ⟨e, k, _⟩
  case inr => rw [hok] at k; cases k
  rcases k' hv'.1 hv'.2 with ⟨_, b1', u', l1', l2', l3'⟩ | ⟨e, k', _⟩
  case inr => rw [hok'] at k'; cases k'
  rw [hw, List.append_assoc, List.append_cancel_left_eq] at l3
  rw [hw', List.append_assoc, List.append_cancel_left_eq] at l3'
  have hy' := hy
  rw [l3, l3', List.append_assoc] at hy'
  obtain ⟨_, _, _, _, z⟩ := versionedHead_unique hv.1 hv.2 hv'.1 hv'.2 hh hh' hy'
  have hlen := congrArg List.length z
  rw [List.length_append, ht _ _ l1 l2, ht' _ _ l1' l2', hnn] at hlen
  have : y = [] := List.length_eq_zero_iff.1 (by omega)
  rw [← hy, this, List.append_nil]

end

/-- A server that answers `GET` with one header and a body. -/
def oneHeaderServer (c : Cfg) [CaseMap] (name value body : Bytes) : Handler c Unit (Duplex Wire Sink) Wire Bytes :=
  { Handler.defaults c Unit (Duplex Wire Sink) Wire Bytes fun e => ServerResponse.fromString c .NotFound e with
    get := fun _ n => (.ok { HttpResponse.new c .OK (.B ⟨[.data body]⟩) with headers := HttpHeaders.new.insert name value }, n) }

theorem answer_key (c : Cfg) : let _ := asciiCase
    let s : Duplex Wire Sink := ⟨⟨[.data b!"GET / HTTP/1.1\r\n\r\n"]⟩, ⟨[], 0, []⟩⟩
    let h := oneHeaderServer c b!"x" b!"1\r\n\r\nhi" b!""
    let h' := oneHeaderServer c b!"x" b!"1" b!"hi\r\n\r\n"
    (match h.serveOneInner (fun _ => []) s (), h'.serveOneInner (fun _ => []) s (), h.serveOne (fun _ => []) (.ok s) (),
        h'.serveOne (fun _ => []) (.ok s) () with
      | (.ok r, i, _), (.ok r', i', _), (.ok _, some d, _), (.ok _, some d', _) =>
        decide (sent i = [] ∧ sent i' = [] ∧ sent d = sent d' ∧ r.headers.entries ≠ r'.headers.entries)
      | _, _, _, _ => false) = true := by
  rcases c with ⟨_ | _⟩ <;> decide +kernel

/-- Response splitting: a header whose value has line ends in it is another header and a body. The two servers are asked the
same, answer different things, say that they did, and have written the same bytes. -/
theorem C163_answer_false (c : Cfg) : let _ := asciiCase
    ∃ (h h' : Handler c Unit (Duplex Wire Sink) Wire Bytes) (s d d' : Duplex Wire Sink) (r r' : ServerResponse c Wire),
      (h.serveOneInner (fun _ => []) s ()).1 = .ok r ∧ (h'.serveOneInner (fun _ => []) s ()).1 = .ok r' ∧
      (h.serveOne (fun _ => []) (.ok s) ()).1 = .ok () ∧ (h'.serveOne (fun _ => []) (.ok s) ()).1 = .ok () ∧
      (h.serveOne (fun _ => []) (.ok s) ()).2.1 = some d ∧ (h'.serveOne (fun _ => []) (.ok s) ()).2.1 = some d' ∧
      sent (h.serveOneInner (fun _ => []) s ()).2.1 = [] ∧ sent (h'.serveOneInner (fun _ => []) s ()).2.1 = [] ∧
      sent d = sent d' ∧ r.headers.entries ≠ r'.headers.entries := by
  have key := answer_key c
  intro _
  dsimp only at key
  split at key
  · rename_i r i _ r' i' _ _ d _ _ d' _ h1 h2 h3 h4
    obtain ⟨k1, k2, k3, k4⟩ := of_decide_eq_true key
    refine ⟨_, _, _, d, d', r, r', congrArg (·.1) h1, congrArg (·.1) h2, congrArg (·.1) h3, congrArg (·.1) h4,
      congrArg (·.2.1) h3, congrArg (·.2.1) h4, ?_, ?_, k3, k4⟩
    · rw [h1]; exact k1
    · rw [h2]; exact k2
  · simp at key

/-- Witness for `C163_answer_partial` and `C163_measured`: with one header that says how long the body is, the request in
pieces and the answer taken in pieces. -/
example (c : Cfg) : let _ := asciiCase
    let s : Duplex Wire Sink := ⟨⟨[.data b!"GET / HT", .data b!"TP/1.1\r\n\r\n"]⟩, ⟨[], 0, [.accept 3]⟩⟩
    let h := oneHeaderServer c b!"Content-Length" b!"5" b!"hello"
    (match h.serveOneInner (fun _ => []) s (), h.serveOne (fun _ => []) (.ok s) () with
      | (.ok r, i, _), (.ok _, some d, _) =>
        decide (sent i = [] ∧ sent d = b!"HTTP/1.1 200 OK\r\ncontent-length: 5\r\n\r\nhello" ∧
          r.version.major < 10 ∧ r.version.minor < 10 ∧ r.headers.entries = [(b!"content-length", b!"5")] ∧
          trace r.body = b!"hello".map .byte)
      | _, _ => false) = true ∧
    SendableHeaders [(b!"content-length", b!"5")] ∧ LengthText b!"5" 5 ∧ b!"hello".length = 5 := by
  intro _ s h
  refine ⟨by rcases c with ⟨_ | _⟩ <;> decide +kernel, ⟨by unfold SortedNames; decide, by decide +kernel, ?_⟩,
    lengthText_iff.1 (by decide +kernel), rfl⟩
  intro kv hkv
  simp only [List.mem_singleton] at hkv
  subst hkv
  exact ⟨isText_ascii (by decide), by decide, by unfold HasCrLf; decide, by simp [StartsBlank], isText_ascii (by decide),
    by unfold HasCrLf; decide⟩

end HttpIo
