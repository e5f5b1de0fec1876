import Verif.Props.Conventions
import Verif.Props.Listing
import Verif.Props.Allow

/-! C181: HEAD and GET. -/

namespace HttpIo
open Spec

section
variable [CaseMap] {c : Cfg} {η σ ρ ε : Type} [LawfulReader σ] [ZeroReader σ] [LawfulWriter σ] [LawfulReader ρ] [ZeroReader ρ]

/-- Full statement: a HEAD request is answered with the head of the answer to GET (`C181_never_false`). What holds, of every server
that does not implement `head`, as both file servers do not: every HEAD request gets the same answer, with a body, whatever the
target and the state are, and changes nothing. -/
theorem C181_head_partial {P : σ → Prop} (hra : ReadsApart σ) (hrel : Reliable c P) (hkept : ∀ s n, P s → P (read s n).2)
    (h : Handler c η σ ρ ε) (ho : OnlyReads h) (hdef : h.head = Handler.defaultHead c ρ ε)
    (hrelease : ∀ b self, h.release b self = self) (errText : Err → Bytes) (s : σ) (self : η) (hs : P s)
    (target : Bytes) (headers : HttpHeaders) (ht : SendableTarget target) (hh : SendableHeaders headers.entries)
    (hl : LengthOk headers.entries) (t : List Ev) (hd : Delivers c (trace s) (requestHead .Head target headers.entries) t) :
    ∃ d, h.serveOne errText (.ok s) self = (.ok (), some d, self) ∧
      sent d = sent s ++ responseHead (utf8 "405 Method Not Allowed") [] ++ utf8 "HEAD not allowed" := by
  obtain ⟨r, s1, g1, g2, _⟩ := C18_roundtrip c (BufReader.new c s) .Head target headers t ht hh hl (by rw [BufReader.trace_new]; exact hd)
  have ha : Acceptable r := fun h => by rw [g2] at h; simp at h
  have hdef' : handled h r.method = handled (Handler.defaults c η σ ρ ε h.into) r.method := by
    rw [g2]; funext uri body self; unfold handled; dsimp only; rw [hdef]; rfl
  obtain ⟨d, k1, k2, k3⟩ := C133_default_false hra hrel hkept h ho errText s self hs r s1 g1 ha hdef'
  refine ⟨d, ?_, ?_⟩
  · have hstate : (h.serveOne errText (.ok s) self).2.2 = self := by
      have hin : (h.serveOneInner errText s self).2.2 = self := by
        rw [serveOneInner_handled h errText self g1 ha, g2]
        dsimp only [handled]
        rw [hdef]; rfl
      unfold Handler.serveOne
      dsimp only
      rcases hq : h.serveOneInner errText s self with ⟨r | r | _, s1, self1⟩ <;> (rw [hq] at hin; dsimp only at hin; subst hin)
      · dsimp only; rcases respond c r s1 with ⟨_ | _, _, _⟩ <;> exact hrelease _ _
      · dsimp only; rcases respond c r s1 with ⟨_ | _, _, _⟩ <;> rfl
      · rfl
    rcases hx : h.serveOne errText (.ok s) self with ⟨x, y, z⟩
    rw [hx] at k1 k2 hstate
    dsimp only at k1 k2 hstate
    rw [k1, k2, hstate]
  · rw [k3, g2]
    have h1 : utf8 "HTTP/1.1 405 Method Not Allowed\r\n\r\n" = responseHead (utf8 "405 Method Not Allowed") [] := by decide +kernel
    rw [h1]; rfl

omit [LawfulWriter σ] [LawfulReader ρ] [ZeroReader ρ] in
/-- False for every file that is there, every one that is not, and every directory: the status in answer to HEAD is never the one
in answer to GET, in either of the file servers. -/
theorem C181_never_false (errText : Err → Bytes) (s u : σ) (fs : Fs) (root : Bytes) (readDir : Fs → List Bytes → List Bytes)
    (r r' : HttpRequest c (BufReader c σ)) (s1 u1 : BufReader c σ)
    (hd : HttpRequest.deserialize c (BufReader.new c s) = (.ok r, s1)) (hm : r.method = .Get)
    (hd' : HttpRequest.deserialize c (BufReader.new c u) = (.ok r', u1)) (hm' : r'.method = .Head) :
    ∀ h, h = fileHandler c σ root errText ∨ h = listingHandler c σ readDir root errText →
      ∃ a a', ((h.serveOneInner errText s fs).1 = .ok a ∨ (h.serveOneInner errText s fs).1 = .err a) ∧
        (h.serveOneInner errText u fs).1 = .ok a' ∧ a'.status.toCode = 405 ∧ a.status.toCode ≠ a'.status.toCode := by
  have ha : Acceptable r := fun h => by rw [hm] at h; simp at h
  have ha' : Acceptable r' := fun h => by rw [hm'] at h; simp at h
  rintro h hh
  have h405 : ∃ a', (h.serveOneInner errText u fs).1 = .ok a' ∧ a'.status.toCode = 405 := by
    rw [serveOneInner_handled h errText fs hd' ha', hm']
    rcases hh with rfl | rfl <;> exact ⟨_, rfl, rfl⟩
  obtain ⟨a', h1, h2⟩ := h405
  have hget : ∃ a, ((h.serveOneInner errText s fs).1 = .ok a ∨ (h.serveOneInner errText s fs).1 = .err a) ∧ a.status.toCode ≠ 405 := by
    rw [serveOneInner_handled h errText fs hd ha, hm]
    dsimp only [handled]
    rcases hh with rfl | rfl
    · dsimp only [fileHandler]
      unfold FileHandler.get
      rcases fs.openFile (joinPath root (trimSlashes r.uri)) with e | file
      · refine ⟨_, .inr rfl, ?_⟩
        dsimp only [Handler.defaults, ServerResponse.ofError]
        split
        · show (411 : UInt32) ≠ 405; decide
        · show (500 : UInt32) ≠ 405; decide
      · exact ⟨_, .inl rfl, by show (200 : UInt32) ≠ 405; decide⟩
    · have hE : ∀ e fs', ∃ a : ServerResponse c Wire, ((((Reply.err e : Reply Err (ServerResponse c Wire)), (fs' : Fs)).1.mapErr
          (listingHandler c σ readDir root errText).into = .ok a) ∨ (((Reply.err e : Reply Err (ServerResponse c Wire)), (fs' : Fs)).1.mapErr
          (listingHandler c σ readDir root errText).into = .err a)) ∧ a.status.toCode ≠ 405 :=
        fun e fs' => ⟨_, .inr rfl, by show (500 : UInt32) ≠ 405; decide⟩
      show ∃ a, ((ListingHandler.getAmid c readDir root r.uri fs fs).1.mapErr (listingHandler c σ readDir root errText).into = .ok a ∨
        (ListingHandler.getAmid c readDir root r.uri fs fs).1.mapErr (listingHandler c σ readDir root errText).into = .err a) ∧ _
      unfold ListingHandler.getAmid
      dsimp only
      repeat' split
      all_goals first
        | exact hE _ _
        | exact ⟨_, .inl rfl, by show (200 : UInt32) ≠ 405; decide⟩
  obtain ⟨a, h3, h4⟩ := hget
  exact ⟨a, a', h3, h1, h2, by rw [h2]; exact h4⟩

end

/-- Witness for both: a file that is there, one that is not, and a directory; and that HEAD is taken for a request. -/
example (c : Cfg) : let _ := asciiCase
    let server := fileHandler c (Duplex Wire Sink) b!"/srv" fun _ => b!"no"
    let say (text : String) := (server.serveOne (fun _ => b!"no") (.ok (requestConn (utf8 text))) sampleFs).2.1.map sent
    say "GET /a HTTP/1.1\r\n\r\n" = some (utf8 "HTTP/1.1 200 OK\r\n\r\nold") ∧
    say "GET /b HTTP/1.1\r\n\r\n" = some (utf8 "HTTP/1.1 500 Internal Server Error\r\n\r\nno") ∧
    say "HEAD /a HTTP/1.1\r\n\r\n" = some (utf8 "HTTP/1.1 405 Method Not Allowed\r\n\r\nHEAD not allowed") ∧
    say "HEAD /b HTTP/1.1\r\n\r\n" = some (utf8 "HTTP/1.1 405 Method Not Allowed\r\n\r\nHEAD not allowed") := by
  intro inst server say
  refine ⟨?_, ?_, ?_, ?_⟩ <;> rcases c with ⟨_ | _⟩ <;> decide +kernel

end HttpIo
