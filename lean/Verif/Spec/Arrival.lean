import Verif.Model.Client
import Verif.Spec.Io
import Verif.Spec.Message
import Verif.Spec.Pipes

/-! Specification vocabulary for what a caller gets from a connection, however it arrives. -/

namespace HttpIo.Spec

/-- Writing does not change what arrives. -/
structure WritesApart (σ : Type) [LawfulReader σ] [Writer σ] : Prop where
  write : ∀ (s : σ) buf, LawfulReader.trace (FiniteWriter.write s buf).2 = LawfulReader.trace s
  flush : ∀ s : σ, LawfulReader.trace (FiniteWriter.flush s).2 = LawfulReader.trace s
  writeAll : ∀ c (s : σ) buf, LawfulReader.trace (Writer.writeAll c s buf).2 = LawfulReader.trace s

/-- Sending a request, making these calls on it and asking for the response. `none`: one of the calls has failed. -/
def asking [CaseMap] {c : Cfg} {σ : Type} [LawfulReader σ] [Writer σ] (b : HttpRequestBuilder c) (writes : List WCall) (s : σ) :
    Option (Res (HttpResponse c (BufReader c σ))) :=
  match b.send s with
  | .error (e, _) => some (.err e)
  | .ok o => if (perform o writes).1 then some (perform o writes).2.finish.1 else none

/-- The same for the caller: the same error, or responses with the same status and headers and bodies that nobody can tell apart. -/
inductive SameResponse {c : Cfg} {ρ τ : Type} [LawfulReader ρ] [ZeroReader ρ] [LawfulReader τ] [ZeroReader τ] :
    Option (Res (HttpResponse c ρ)) → Option (Res (HttpResponse c τ)) → Prop
  | refused : SameResponse none none
  | done {r : Res (HttpResponse c ρ)} {r' : Res (HttpResponse c τ)} : SameOutcome (fun a b => a.version = b.version ∧
      a.status = b.status ∧ a.headers = b.headers ∧ SameBody a.body b.body) r r' → SameResponse (some r) (some r')

/-- Requests one after the other on one connection. -/
def conversation [CaseMap] (c : Cfg) {σ : Type} [LawfulReader σ] [ZeroReader σ] [Writer σ] : List Ask → σ → List Outcome × σ
  | [], s => ([], s)
  | q :: qs, s => ((q.run c s).1 :: (conversation c qs (q.run c s).2).1, (conversation c qs (q.run c s).2).2)

/-- If there was a response, its body was read to its end. -/
def ReadOut (o : Outcome) : Prop := ∀ status headers rs, o = .got status headers rs → .ok [] ∈ rs

/-- The same outcome, but for how the bytes of the body were split into reads. -/
inductive Alike : Outcome → Outcome → Prop
  | unsent : Alike .unsent .unsent
  | failed (e : Err) : Alike (.failed e) (.failed e)
  | panicked : Alike .panicked .panicked
  | got (status : HttpStatus) (headers : HttpHeaders) {rs rs' : List (Except Err HttpIo.Bytes)} : seen rs = seen rs' →
      Alike (.got status headers rs) (.got status headers rs')

end HttpIo.Spec
