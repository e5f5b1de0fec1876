import Verif.Props.Verdict
import Verif.Props.Unicode
import Verif.Props.Client
import Verif.Lemmas.Peer
import Verif.Lemmas.Talker
import Verif.Props.Blame
import Verif.Model.Server

/-! C159: nothing is both a request and a response. -/

namespace HttpIo
open Spec

theorem delivers_comparable {c : Cfg} {t t1 t2 : List Ev} {a b : Bytes} (h1 : Delivers c t a t1) (h2 : Delivers c t b t2) :
    a <+: b ∨ b <+: a := by
  induction h1 generalizing b with
  | nil => exact .inl List.nil_prefix
  | byte x _ ih =>
    cases h2 with
    | nil => exact .inr List.nil_prefix
    | byte _ h2 => simpa using ih h2
  | retry hr _ ih =>
    cases h2 with
    | nil => exact .inr List.nil_prefix
    | retry _ h2 => exact ih h2

theorem prefix_of_line {x l : Bytes} (hx : (13 : UInt8) ∉ x) (h : x <+: l ++ [13, 10] ∨ l ++ [13, 10] <+: x) : x <+: l := by
  rcases h with h | h
  · rcases Nat.lt_or_ge l.length x.length with hl | hl
    · exfalso
      apply hx
      have h1 : l <+: x := List.prefix_of_prefix_length_le (List.prefix_append _ _) h (Nat.le_of_lt hl)
      obtain ⟨y, rfl⟩ := h1
      have h2 := (List.prefix_append_right_inj l).1 h
      cases y with
      | nil => simp at hl
      | cons a y =>
        obtain ⟨z, hz⟩ := h2
        simp only [List.cons_append, List.cons.injEq] at hz
        rw [hz.1]; simp
    · exact List.prefix_of_prefix_length_le h (List.prefix_append _ _) hl
  · exact absurd (h.mem (by simp)) hx

theorem firstToken_word {w rest v : Bytes} (hw : ∀ b ∈ w, b ≠ 32 ∧ b ≠ 9) (h : FirstToken (w ++ 32 :: rest) v) : v = w :=
  h.unique ⟨hw, .inr ⟨32, rest, rfl, .inl rfl⟩⟩

theorem upperSpelling_ascii [CaseMap] {a b : UInt8} {s t : Bytes} (ha : a.toNat < 128) (h : UpperSpelling (a :: s) (b :: t)) :
    SameLetter a b ∧ UpperSpelling s t := by
  rcases upperSpelling_cons.1 h with ⟨a', s', h1, h2, h3⟩ | ⟨v, w, s', t', h1, -, h3, -⟩
  · simp only [List.cons.injEq] at h1
    rw [h1.1, h1.2]; exact ⟨h2, h3⟩
  · exfalso
    have : ∀ p ∈ asciiUppers, ∀ b ∈ (utf8Char p.1).head?, 128 ≤ b.toNat := by decide +kernel
    have h4 := this _ h1
    cases hv : utf8Char v with
    | nil => 
      have : ∀ p ∈ asciiUppers, utf8Char p.1 ≠ [] := by decide +kernel
      exact this _ h1 hv
    | cons x y =>
      rw [hv] at h3 h4
      simp only [List.cons_append, List.cons.injEq] at h3
      have := h4 x (by simp)
      rw [← h3.1] at this
      omega

/-- The name of a method is not the beginning of a version. -/
theorem version_not_method [CaseMap] {v : Bytes} {a b : Nat} (hv : VersionText v a b) (m : HttpMethod) : ¬ UpperSpelling v (utf8 (methodName m)) := by
  obtain ⟨d1, d2, rest, rfl, -⟩ := hv
  intro h
  rw [methodName_bytes, show utf8 "HTTP/" = b!"HTTP/" by decide +kernel] at h
  have hd : ∀ a b : UInt8, SameLetter a b → (a = 72 → b = 72 ∨ b = 104) ∧ (a = 84 → b = 84 ∨ b = 116) := by
    intro a b h
    rcases h with rfl | ⟨k, hk, rfl, rfl⟩ | ⟨k, hk, rfl, rfl⟩
    · exact ⟨.inl, .inl⟩
    · exact (show ∀ k, k < 26 → (UInt8.ofNat (65 + k) = 72 → UInt8.ofNat (97 + k) = 72 ∨ UInt8.ofNat (97 + k) = 104) ∧
        (UInt8.ofNat (65 + k) = 84 → UInt8.ofNat (97 + k) = 84 ∨ UInt8.ofNat (97 + k) = 116) by decide) k hk
    · exact (show ∀ k, k < 26 → (UInt8.ofNat (97 + k) = 72 → UInt8.ofNat (65 + k) = 72 ∨ UInt8.ofNat (65 + k) = 104) ∧
        (UInt8.ofNat (97 + k) = 84 → UInt8.ofNat (65 + k) = 84 ∨ UInt8.ofNat (65 + k) = 116) by decide) k hk
  cases m <;> simp only [List.cons_append] at h <;> obtain ⟨h1, h2⟩ := upperSpelling_ascii (by decide) h <;>
    have h3 := (hd _ _ h1).1 rfl <;> first | (revert h3; decide) | skip
  obtain ⟨h4, _⟩ := upperSpelling_ascii (by decide) h2
  have h5 := (hd _ _ h4).2 rfl
  revert h5; decide

section
variable [CaseMap] {σ τ : Type} [LawfulReader σ] [LawfulReader τ]

omit [LawfulReader σ] [LawfulReader τ] in
theorem lines_disjoint {up low : Nat → Bytes} (hu : UnicodeCase up low) {line target : Bytes} {m : HttpMethod} {a b a' b' code : Nat}
    (ht : IsText line) (h1 : RequestLine line m target a b) (h2 : StatusLine line a' b' code) : False := by
  obtain ⟨v, ⟨tok, g1, g2, rest, rfl, w1, w2, w3, w4, hm, h3, h4⟩, -⟩ := h1
  obtain ⟨v', g, rest', t, -, hf, -, -, hv, -⟩ := h2
  obtain ⟨x, y, hb, hb'⟩ := startsBlank_gap w2 (target ++ g2 ++ rest)
  have e : tok ++ g1 ++ target ++ g2 ++ rest = tok ++ x :: y := by rw [← hb]; simp
  rw [e] at ht hf
  have hl := (isText_split (by rcases hb' with rfl | rfl <;> decide) ht).1
  have hv' : v' = tok := hf.unique ⟨w1.2, .inr ⟨x, y, rfl, hb'⟩⟩
  rw [hv'] at hv
  exact version_not_method hv m ((C154_method_partial hu tok hl _).1 ((method_iff tok m).2 hm))

theorem delivers_longer {c : Cfg} {t t' : List Ev} {bs : Bytes} (h : Delivers c t bs t') (more : List Ev) :
    Delivers c (t ++ more) bs (t' ++ more) := by
  induction h with
  | nil => exact .nil _
  | byte b _ ih => exact .byte b ih
  | retry hr _ ih => exact .retry hr ih

theorem headOf_line {c : Cfg} {t t' : List Ev} {line : Bytes} {hist : List (Bytes × Bytes)} (h : HeadOf c t line hist t') :
    RawLine line ∧ ∃ t1, Delivers c t (line ++ [13, 10]) t1 := by
  obtain ⟨raw, hl, _, hd, _⟩ := h
  refine ⟨hl, ?_⟩
  rw [show blockBytes (line :: raw) = line ++ [13, 10] ++ blockBytes raw by simp [blockBytes]] at hd
  obtain ⟨t1, h1, _⟩ := hd.split
  exact ⟨t1, h1⟩

/-- No stream is accepted both as a request and as a response; nor is one accepted as the one whose beginning is accepted as
the other. -/
theorem C159_disjoint {up low : Nat → Bytes} (hu : UnicodeCase up low) (c : Cfg) (s s' : σ) (u u' : τ) (r : HttpRequest c σ)
    (r' : HttpResponse c (BufReader c τ)) (hpre : trace s <+: trace u ∨ trace u <+: trace s)
    (h1 : HttpRequest.deserialize c s = (.ok r, s')) : HttpResponse.deserialize c u ≠ (.ok r', u') := by
  intro h2
  obtain ⟨line, hist, k1, hd, _⟩ := C69_request_sound c s s' r h1
  obtain ⟨line', hist', k1', hd', _⟩ := C69_response_sound c u u' r' h2
  obtain ⟨hl, t1, hd⟩ := headOf_line hd
  obtain ⟨hl', t1', hd'⟩ := headOf_line hd'
  have he : line = line' := by
    rcases hpre with ⟨m, hm⟩ | ⟨m, hm⟩
    · have := delivers_longer hd m
      rw [hm] at this
      exact line_unique hl this hl' hd'
    · have := delivers_longer hd' m
      rw [hm] at this
      exact line_unique hl hd hl' this
  subst he
  exact lines_disjoint hu hl.2.2 k1 k1'

/-- What begins with the name of a method and a space, as every request does, is refused as a response (and does not panic the
parser): a client whose request is sent back to it reports an error. -/
theorem C159_echo (c : Cfg) (u : τ) (m : HttpMethod) (t' : List Ev) (h : Delivers c (trace u) (utf8 (methodName m) ++ [32]) t') :
    ∃ e, (HttpResponse.deserialize c u).1 = .err e := by
  unfold HttpResponse.deserialize parseHead
  rcases hn : expectNext c u with ⟨e | line, u1⟩
  · exact ⟨e, rfl⟩
  · obtain ⟨hl, hd⟩ := expectNext_ok_inv hn
    have hname : (13 : UInt8) ∉ utf8 (methodName m) ++ [32] ∧ ∀ b ∈ utf8 (methodName m), b ≠ 32 ∧ b ≠ 9 := by
      rw [methodName_bytes]; cases m <;> decide
    obtain ⟨rest, hrest⟩ := prefix_of_line hname.1 (delivers_comparable h hd)
    have htok : ∀ v, FirstToken line v → v = utf8 (methodName m) := by
      intro v hv
      rw [← hrest, List.append_assoc] at hv
      exact firstToken_word hname.2 hv
    have h1 : ∀ a, parseStatusLine line ≠ .ok a := by
      rintro ⟨v, st⟩ hp
      obtain ⟨code, ⟨w, g, rest', t, -, hf, -, -, hv, -⟩, -⟩ := (statusLine_ok_iff ((validUtf8_iff _).2 hl.2.2) _ _).1 hp
      rw [htok w hf, methodName_bytes, ] at hv
      obtain ⟨d1, d2, z, hz, -⟩ := hv
      rw [show utf8 "HTTP/" = b!"HTTP/" by decide +kernel] at hz
      cases m <;> simp [HttpMethod.display] at hz
    have h2 : parseStatusLine line ≠ .panic := by
      intro hp
      obtain ⟨w, hf, hc⟩ := (statusLine_panic_iff ((validUtf8_iff _).2 hl.2.2)).1 hp
      have ha : ∀ b ∈ w, b.toNat < 128 := by
        rw [htok w hf, methodName_bytes]; cases m <;> decide
      have hno : ∀ b ∈ w, ¬ 128 ≤ b.toNat := fun b hb => by have := ha b hb; omega
      rcases hc with ⟨a, b, z, rfl, -, h1, -⟩ | ⟨b, z, rfl, h1⟩ | ⟨d, n, b, z, rfl, -, h1⟩ | ⟨d, n, b, z, rfl, -, h1⟩ <;>
        exact hno b (by simp) h1
    dsimp only
    rcases hp : parseStatusLine line with a | e | _
    · exact absurd hp (h1 a)
    · exact ⟨e, rfl⟩
    · exact absurd hp h2

/-- What begins with `HTTP/1.1` and a space, as every response does, is refused as a request: a server that is sent a response
does not act on it. -/
theorem C159_reflect (c : Cfg) (u : τ) (t' : List Ev) (h : Delivers c (trace u) (utf8 "HTTP/1.1 ") t') :
    ∃ e, (HttpRequest.deserialize c u).1 = .err e := by
  rw [show utf8 "HTTP/1.1 " = b!"HTTP/1.1" ++ [32] by decide +kernel] at h
  unfold HttpRequest.deserialize parseHead
  rcases hn : expectNext c u with ⟨e | line, u1⟩
  · exact ⟨e, rfl⟩
  · obtain ⟨hl, hd⟩ := expectNext_ok_inv hn
    obtain ⟨rest, hrest⟩ := prefix_of_line (by decide) (delivers_comparable h hd)
    have hp : ¬ ∀ e, parseRequestLine line ≠ .err e := by
      intro hp
      obtain ⟨m, target, v, tok, g1, g2, l2, hline, w1, w2, -, -, hm, -⟩ := requestLine_words ((validUtf8_iff _).2 hl.2.2) hp
      obtain ⟨x, y, hb, hb'⟩ := startsBlank_gap w2 (target ++ g2 ++ l2)
      have e : line = tok ++ x :: y := by rw [hline, ← hb]; simp
      have htok : FirstToken line tok := ⟨w1.2, .inr ⟨x, y, e, hb'⟩⟩
      rw [← hrest, List.append_assoc] at htok
      rw [firstToken_word (by decide) htok, methodName_bytes, CaseMap.upper_ascii _ (by decide)] at hm
      revert hm
      cases m <;> decide
    dsimp only
    rcases hq : parseRequestLine line with a | e | _
    · exact absurd (fun e => by simp [hq]) hp
    · exact ⟨e, rfl⟩
    · exact absurd (fun e => by simp [hq]) hp

omit [CaseMap] [LawfulReader σ] [LawfulReader τ] in
/-- What is on the wire when a response is about to be read begins with the head of the request. -/
theorem attempts_wire {χ κ : Type} [LawfulWriter χ] {c : Cfg} (r : HttpRequest c κ) (hv : r.version = ⟨1, 1⟩) (s d : χ)
    (o : OutgoingRequest c χ) (h : r.serialize (BufWriter.new c s) = .ok o) (cs : List WCall)
    (hlen : ∀ buf ∈ written cs, buf.length < 2 ^ 64) (hc : (attempt o cs).2.complete = .ok d) :
    ∃ x, wire d = sent s ++ requestHead r.method r.uri r.headers.entries ++ x := by
  obtain ⟨g1, g2⟩ := C18_serialized r s hv o h
  cases o with
  | WithBody b =>
    obtain ⟨b', x, k1, k2, k3⟩ := attempt_torn (b := b) hlen
    rw [k1] at hc
    obtain ⟨k4, k5⟩ := OutgoingBody.complete_ok hc
    exact ⟨x ++ b!"0\r\n\r\n", by
      rw [k5, k4, k3, show sent b.socket = outgoingSent (.WithBody b) from rfl, g1]; simp⟩
  | NoBody s0 =>
    obtain ⟨s1, k1, k2⟩ : ∃ s1, (attempt (OutgoingRequest.NoBody (c := c) s0) cs).2 = .NoBody s1 ∧ sent s1 = sent s0 := by
      clear hc hlen h g1 g2
      induction cs generalizing s0 with
      | nil => exact ⟨s0, rfl, rfl⟩
      | cons call cs ih =>
        cases call with
        | write buf => exact ih s0
        | flush => exact ih s0
    rw [k1] at hc
    obtain ⟨k3, k4, _⟩ := sent_request (cs := []) (o := .NoBody s1) (by simp [written]) rfl hc
    exact ⟨[], by rw [k3, (k4 s1 rfl).1, k2, show sent s0 = outgoingSent (.NoBody (c := c) s0) from rfl, g1]; simp⟩

/-- A client whose peer sends back what it receives (whatever else it sends after that) gets no response, whatever the request,
and whatever it writes of its body. -/
theorem C159_echoing_peer {χ κ : Type} [PeerSocket χ] {c : Cfg} (r : HttpRequest c κ) (hv : r.version = ⟨1, 1⟩) (s : χ)
    (hs : sent s = []) (ht : PeerSocket.taken s = []) (he : ∀ w, ∃ t', Delivers c (PeerSocket.peer s w) w t')
    (o : OutgoingRequest c χ) (h : r.serialize (BufWriter.new c s) = .ok o) (cs : List WCall)
    (hlen : ∀ buf ∈ written cs, buf.length < 2 ^ 64) : ∃ e, ((attempt o cs).2.finish).1 = .err e := by
  have hk := peer_kept (σ := χ) (PeerSocket.peer s) []
  have h1 := hk.serialize (r := r) (s := s) ⟨rfl, ht⟩
  rw [h] at h1
  have h3 := hk.complete (hk.outgoing.attempt (cs := cs) h1)
  unfold OutgoingRequest.finish
  cases hc : (attempt o cs).2.complete with
  | error x => exact ⟨x.1, rfl⟩
  | ok d =>
    rw [hc] at h3
    obtain ⟨x, hx⟩ := attempts_wire r hv s d o h cs hlen hc
    have hh := PeerSocket.heard d
    rw [h3.1, h3.2, hx, hs] at hh
    obtain ⟨t', hd⟩ := he ([] ++ requestHead r.method r.uri r.headers.entries ++ x)
    rw [← hh] at hd
    unfold requestHead at hd
    simp only [List.nil_append, List.append_assoc] at hd
    rw [← List.append_assoc] at hd
    obtain ⟨t1, hd1, _⟩ := hd.split
    exact C159_echo c d r.method t1 hd1

/-- A server to which a response is sent asks its handler for nothing. -/
theorem C159_server {η ρ ε : Type} {χ : Type} [LawfulReader χ] [ZeroReader χ] [Writer χ] {c : Cfg} [LawfulReader ρ] [ZeroReader ρ]
    (h : Handler c η χ ρ ε) (errText : Err → Bytes) (s : χ) (self : η) (t' : List Ev)
    (hd : Delivers c (trace s) (utf8 "HTTP/1.1 ") t') : (h.serveOne errText (.ok s) self).2.2 = self := by
  obtain ⟨e, he⟩ := C159_reflect c (BufReader.new c s) t' (by rw [BufReader.trace_new]; exact hd)
  rcases hp : HttpRequest.deserialize c (BufReader.new c s) with ⟨r, s1⟩
  rw [hp] at he
  dsimp only at he
  subst he
  have hi : h.serveOneInner errText s self = (.err (ServerResponse.ofError c errText e), s1.inner, self) := by
    unfold Handler.serveOneInner
    rw [hp]
  unfold Handler.serveOne
  dsimp only
  rw [hi]
  dsimp only
  rcases respond (ρ := ρ) c (ServerResponse.ofError c errText e) s1.inner with ⟨_ | _, _, _⟩ <;> rfl

end

/-- Witness for `C159_disjoint`: a request that is accepted, with a method in other letters than those of ASCII, and what a reader
of responses makes of it. -/
example : let _ := someUnicode
    let c : Cfg := ⟨false⟩
    let w : Wire := ⟨[.data (utf8 "poﬆ / HTTP/1.1\r\n\r\n")]⟩
    (∃ up low, UnicodeCase up low) ∧
    (match (HttpRequest.deserialize c w).1 with | .ok r => r.method == .Post | _ => false) = true ∧
    (match (HttpResponse.deserialize c w).1 with | .err _ => true | _ => false) = true := by
  intro _
  exact ⟨⟨_, _, someUnicode_ok⟩, by decide +kernel, by decide +kernel⟩

theorem byte_delivered (c : Cfg) (bs : Bytes) (t : List Ev) : Delivers c (bs.map .byte ++ t) bs t := by
  induction bs with
  | nil => exact .nil _
  | cons b bs ih => exact .byte b ih

/-- Witness for `C159_echo` and `C159_reflect`: streams that begin so; they are refused at the first word, however they go on. -/
example (c : Cfg) : let _ := asciiCase
    let q : Wire := ⟨[.data b!"TRACE /", .data b!" HTTP/1.1\r\n\r\n"]⟩
    let a : Wire := ⟨[.data b!"HTTP/1.1 200", .data b!" OK\r\n\r\n"]⟩
    (∃ t', Delivers c (trace q) (utf8 (methodName .Trace) ++ [32]) t') ∧ (∃ t', Delivers c (trace a) (utf8 "HTTP/1.1 ") t') ∧
    (match (HttpResponse.deserialize c q).1 with | .err e => decide (e = .parse) | _ => false) = true ∧
    (match (HttpRequest.deserialize c a).1 with | .err e => decide (e = .parse) | _ => false) = true ∧
    (match (HttpRequest.deserialize c q).1 with | .ok _ => true | _ => false) = true ∧
    (match (HttpResponse.deserialize c a).1 with | .ok _ => true | _ => false) = true := by
  intro _
  rw [show utf8 "HTTP/1.1 " = b!"HTTP/1.1 " by decide +kernel,
    show utf8 (methodName .Trace) ++ [32] = b!"TRACE " by decide +kernel]
  refine ⟨⟨_, byte_delivered c b!"TRACE " _⟩, ⟨_, byte_delivered c b!"HTTP/1.1 " _⟩, ?_, ?_, ?_, ?_⟩ <;>
    rcases c with ⟨_ | _⟩ <;> decide +kernel

/-- A peer that sends back what it receives; writes are cut short. -/
def parrot : Talker where
  reply w := w
  mono _ _ := List.prefix_append _ _
  idle := none
  seg := 5
  sink := ⟨[], 0, [.accept 2, .accept 9]⟩
  got := []
  got_le := List.nil_prefix
  dead := false
  dead_got := by simp

/-- Witness for `C159_echoing_peer`. -/
example (c : Cfg) : let _ := asciiCase
    sent parrot = [] ∧ PeerSocket.taken parrot = [] ∧ (∀ w, ∃ t', Delivers c (PeerSocket.peer parrot w) w t') ∧
    (match (HttpRequest.new c .Put b!"/a").serialize (BufWriter.new c parrot) with
      | .ok o =>
        let o' := (attempt o [.write b!"HTTP/1.1 200 OK\r\n\r\n"]).2
        (match o'.finish with
        | (.err e, s) => decide (e = .parse) && (wire s == b!"PUT /a HTTP/1.1\r\n\r\n13\r\nHTTP/1.1 200 OK\r\n\r\n\r\n0\r\n\r\n")
        | _ => false)
      | _ => false) = true := by
  intro _
  refine ⟨rfl, rfl, fun w => ⟨_, byte_delivered c w _⟩, ?_⟩
  rcases c with ⟨_ | _⟩ <;> decide +kernel

/-- Witness for `C159_server`: a server that is sent a response. -/
example (c : Cfg) : let _ := asciiCase
    let s := requestConn b!"HTTP/1.1 200 OK\r\n\r\n"
    (∃ t', Delivers c (trace s) (utf8 "HTTP/1.1 ") t') ∧
    ((getOnly c).serveOne (fun _ => b!"?") (.ok s) ()).2.1.map sent = some b!"HTTP/1.1 500 Internal Server Error\r\n\r\n?" := by
  intro _
  rw [show utf8 "HTTP/1.1 " = b!"HTTP/1.1 " by decide +kernel]
  refine ⟨⟨_, byte_delivered c b!"HTTP/1.1 " _⟩, ?_⟩
  rcases c with ⟨_ | _⟩ <;> decide +kernel

end HttpIo
