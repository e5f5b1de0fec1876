import Verif.Spec.Server
import Verif.Spec.Panic

/-! Specification vocabulary for what an answer depends on. -/

namespace HttpIo.Spec

section
variable {c : Cfg} {η σ ρ ε : Type} [LawfulReader σ] [ZeroReader σ]

/-- What the handler does with a body depends on what can be read from it, not on the sizes of the reads it takes. -/
structure ByContent (h : Handler c η σ ρ ε) : Prop where
  put : ∀ uri body body' self, framing body = framing body' → trace body = trace body' →
    (h.put uri body self).1 = (h.put uri body' self).1 ∧ (h.put uri body self).2.2 = (h.put uri body' self).2.2
  post : ∀ uri body body' self, framing body = framing body' → trace body = trace body' →
    (h.post uri body self).1 = (h.post uri body' self).1 ∧ (h.post uri body self).2.2 = (h.post uri body' self).2.2

/-- The server does the same on two connections: the same result, the same state of the handler, the same bytes sent. -/
def SameAnswer [CaseMap] [LawfulWriter σ] [LawfulReader ρ] [ZeroReader ρ] (h : Handler c η σ ρ ε) (errText : Err → Bytes)
    (s u : σ) (self : η) : Prop :=
  ∃ d e x, (h.serveOne errText (.ok s) self).2.1 = some d ∧ (h.serveOne errText (.ok u) self).2.1 = some e ∧
    (h.serveOne errText (.ok s) self).1 = (h.serveOne errText (.ok u) self).1 ∧
    (h.serveOne errText (.ok s) self).2.2 = (h.serveOne errText (.ok u) self).2.2 ∧
    sent d = sent s ++ x ∧ sent e = sent u ++ x

/-- Two histories of header lines that agree on what delimits the body. -/
def SameFraming [CaseMap] (hist hist' : List (Bytes × Bytes)) : Prop :=
  ∀ name, name = utf8 "content-length" ∨ name = utf8 "transfer-encoding" → ∀ v,
    LastWith (fun k => CaseMap.lower k = name) hist v ↔ LastWith (fun k => CaseMap.lower k = name) hist' v

end

end HttpIo.Spec
