import Verif.Model.Server
import Verif.Spec.Body
import Verif.Spec.Io
import Verif.Spec.Message

/-! Specification vocabulary for the server. -/

namespace HttpIo.Spec

section
variable {c : Cfg} {η σ ρ ε : Type}

/-- The same handler with a log of the calls made to it: the method and its target. -/
def spied (h : Handler c η σ ρ ε) : Handler c (η × List (HttpMethod × Bytes)) σ ρ ε where
  delete uri x := ((h.delete uri x.1).1, (h.delete uri x.1).2, x.2 ++ [(.Delete, uri)])
  get uri x := ((h.get uri x.1).1, (h.get uri x.1).2, x.2 ++ [(.Get, uri)])
  head uri x := ((h.head uri x.1).1, (h.head uri x.1).2, x.2 ++ [(.Head, uri)])
  options uri x := ((h.options uri x.1).1, (h.options uri x.1).2, x.2 ++ [(.Options, uri)])
  put uri body x := ((h.put uri body x.1).1, (h.put uri body x.1).2.1, (h.put uri body x.1).2.2, x.2 ++ [(.Put, uri)])
  post uri body x := ((h.post uri body x.1).1, (h.post uri body x.1).2.1, (h.post uri body x.1).2.2, x.2 ++ [(.Post, uri)])
  trace uri x := ((h.trace uri x.1).1, (h.trace uri x.1).2, x.2 ++ [(.Trace, uri)])
  into := h.into
  release body x := (h.release body x.1, x.2)

/-- What the handler's method for `m` does. The methods that do not get the body leave it as it is. -/
def handled (h : Handler c η σ ρ ε) (m : HttpMethod) (uri : Bytes) (body : HttpBody c (BufReader c σ)) (self : η) :
    Reply ε (ServerResponse c ρ) × HttpBody c (BufReader c σ) × η :=
  match m with
  | .Delete => ((h.delete uri self).1, body, (h.delete uri self).2)
  | .Get => ((h.get uri self).1, body, (h.get uri self).2)
  | .Head => ((h.head uri self).1, body, (h.head uri self).2)
  | .Options => ((h.options uri self).1, body, (h.options uri self).2)
  | .Post => h.post uri body self
  | .Put => h.put uri body self
  | .Trace => ((h.trace uri self).1, body, (h.trace uri self).2)

/-- A request that the server hands to the handler: any but PUT and POST with a body that is not delimited. -/
def Acceptable {τ : Type} (r : HttpRequest c τ) : Prop := (r.method = .Put ∨ r.method = .Post) → framing r.body ≠ .tilClose

/-- The handler uses the body of a request only by reading it. -/
structure OnlyReads [LawfulReader σ] [ZeroReader σ] (h : Handler c η σ ρ ε) : Prop where
  put : ∀ uri body self, ∃ sizes, (h.put uri body self).2.1 = (calls body sizes).2
  post : ∀ uri body self, ∃ sizes, (h.post uri body self).2.1 = (calls body sizes).2

/-- Reading sends nothing. -/
def ReadsApart (σ : Type) [LawfulReader σ] [LawfulWriter σ] : Prop := ∀ (s : σ) (n : Nat), sent (Reader.read s n).2 = sent s

end

/-- The name of the method as it appears in the default answers (`POST` is given as `PUT`). -/
def refusal : HttpMethod → String
  | .Delete => "DELETE not allowed"
  | .Get => "GET not allowed"
  | .Head => "HEAD not allowed"
  | .Options => "OPTIONS not allowed"
  | .Post => "PUT not allowed"
  | .Put => "PUT not allowed"
  | .Trace => "TRACE not allowed"

end HttpIo.Spec
