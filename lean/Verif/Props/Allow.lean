import Verif.Props.Server
import Verif.Props.Files

/-! C133: what a 405 answer says of the methods that are allowed. -/

namespace HttpIo
open Spec

section
variable [CaseMap] {c : Cfg} {η σ ρ ε : Type} [LawfulReader σ] [ZeroReader σ] [LawfulWriter σ] [LawfulReader ρ] [ZeroReader ρ]

/-- False: a handler that leaves a method at its default, whatever it does with the others, answers every request of that
method with a head of the status line alone. There is no `Allow`. -/
theorem C133_default_false {P : σ → Prop} (hra : ReadsApart σ) (hrel : Reliable c P) (hkept : ∀ s n, P s → P (read s n).2)
    (h : Handler c η σ ρ ε) (ho : OnlyReads h) (errText : Err → Bytes) (s : σ) (self : η) (hs : P s)
    (r : HttpRequest c (BufReader c σ)) (s1 : BufReader c σ)
    (hd : HttpRequest.deserialize c (BufReader.new c s) = (.ok r, s1)) (ha : Acceptable r)
    (hdef : handled h r.method = handled (Handler.defaults c η σ ρ ε h.into) r.method) :
    ∃ d, (h.serveOne errText (.ok s) self).1 = .ok () ∧ (h.serveOne errText (.ok s) self).2.1 = some d ∧
      sent d = sent s ++ utf8 "HTTP/1.1 405 Method Not Allowed\r\n\r\n" ++ utf8 (refusal r.method) := by
  have hi := serveOneInner_handled h errText self hd ha
  obtain ⟨a, h1, h2, _, h3, h4, h5⟩ := C53_default (c := c) (η := η) (σ := σ) h.into r.method r.uri r.body self
  rw [hdef, h1] at hi
  have ht := trace_of_yields h5
  obtain ⟨g1, d, g2, _, g3⟩ := serve_succeeds hra hrel hkept h ho errText s self hs a (.inl (by rw [hi]; rfl)) h3
    (utf8 (refusal r.method)) [] (by rw [ht]; simpa using delivers_map c (utf8 (refusal r.method)) []) (by simp [Ended])
  refine ⟨d, g1, g2, ?_⟩
  rw [g3, h2, h4]
  congr 2
  decide +kernel

/-- Full statement: an answer 405 names the methods that are allowed, in an `Allow` field. What holds: it does if the
handler's own response has that field; with any response the handler makes, all its fields are sent as they are. Missing:
the answers of the methods that are not overridden, see `C133_default_false`. -/
theorem C133_own_partial {P : σ → Prop} (hra : ReadsApart σ) (hrel : Reliable c P) (hkept : ∀ s n, P s → P (read s n).2)
    (h : Handler c η σ ρ ε) (ho : OnlyReads h) (errText : Err → Bytes) (s : σ) (self : η) (hs : P s)
    (r : HttpRequest c (BufReader c σ)) (s1 : BufReader c σ)
    (hd : HttpRequest.deserialize c (BufReader.new c s) = (.ok r, s1)) (ha : Acceptable r)
    (a : ServerResponse c ρ) (hown : (handled h r.method r.uri r.body self).1 = .ok a) (h405 : a.status = .MethodNotAllowed)
    (hv : a.version = ⟨1, 1⟩) (allow : Bytes) (hallow : (utf8 "allow", allow) ∈ a.headers.entries) (bs : Bytes)
    (hy : Yields a.body bs) :
    ∃ d before after, (h.serveOne errText (.ok s) self).2.1 = some d ∧
      sent d = sent s ++ utf8 "HTTP/1.1 405 Method Not Allowed\r\n" ++ before ++ utf8 "allow: " ++ allow ++ utf8 "\r\n" ++ after ++
        utf8 "\r\n" ++ bs := by
  have hi := serveOneInner_handled h errText self hd ha
  rw [hown] at hi
  have ht := trace_of_yields hy
  obtain ⟨g1, d, g2, _, g3⟩ := serve_succeeds hra hrel hkept h ho errText s self hs a (.inl (by rw [hi]; rfl)) hv
    bs [] (by rw [ht]; simpa using delivers_map c bs []) (by simp [Ended])
  obtain ⟨pre, post, he⟩ := List.append_of_mem hallow
  refine ⟨d, headerText pre, headerText post, g2, ?_⟩
  rw [g3, h405, he]
  unfold responseHead headerText
  simp only [List.flatMap_append, List.flatMap_cons,
    show utf8 "HTTP/1.1 405 Method Not Allowed\r\n" = utf8 "HTTP/1.1" ++ [32] ++ HttpStatus.display .MethodNotAllowed ++ [13, 10] by
    decide +kernel, show utf8 "allow: " = utf8 "allow" ++ [58, 32] by decide +kernel, show utf8 "\r\n" = [13, 10] by decide +kernel,
    List.append_assoc]

end

/-- Only GET is implemented; a handler that answers DELETE with a response of its own. -/
def getOnly (c : Cfg) : Handler c Unit (Duplex Wire Sink) Wire Bytes :=
  { Handler.defaults c Unit (Duplex Wire Sink) Wire Bytes (ServerResponse.fromString c .InternalServerError) with
    get := fun _ h => (.ok (HttpResponse.new c .OK (.B ⟨[.data b!"hi"]⟩)), h)
    delete := fun _ h => (.ok { HttpResponse.new c .MethodNotAllowed (.B ⟨[]⟩) with headers := HttpHeaders.fromVec [⟨b!"allow", b!"GET"⟩] }, h) }

/-- Witness for both: a PUT, and a DELETE. -/
example (c : Cfg) : let _ := asciiCase
    handled (getOnly c) .Put = handled (Handler.defaults c Unit (Duplex Wire Sink) Wire Bytes (getOnly c).into) .Put ∧
    ((getOnly c).serveOne (fun _ => []) (.ok (requestConn b!"PUT / HTTP/1.1\r\ncontent-length: 1\r\n\r\nx")) ()).2.1.map sent =
      some b!"HTTP/1.1 405 Method Not Allowed\r\n\r\nPUT not allowed" ∧
    ((getOnly c).serveOne (fun _ => []) (.ok (requestConn b!"DELETE / HTTP/1.1\r\n\r\n")) ()).2.1.map sent =
      some b!"HTTP/1.1 405 Method Not Allowed\r\nallow: GET\r\n\r\n" := by
  refine ⟨rfl, ?_, ?_⟩ <;> rcases c with ⟨_ | _⟩ <;> decide +kernel

end HttpIo
