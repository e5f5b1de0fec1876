import Verif.Spec.Conventions
import Verif.Spec.Server
import Verif.Model.TestServer

/-! Specification vocabulary for C118: servers that follow a script. -/

namespace HttpIo.Spec

section
variable {c : Cfg} {σ : Type} [LawfulReader σ]

/-- The connection brings a request of the method `m` for `target`, with the body `body` if it is a PUT or a POST. -/
def Brings [CaseMap] (c : Cfg) (s : σ) (m : HttpMethod) (target body : Bytes) : Prop :=
  ∃ (headers : HttpHeaders) (t : List Ev), SendableTarget target ∧ SendableHeaders headers.entries ∧ LengthOk headers.entries ∧
    Delivers c (trace s) (requestHead m target headers.entries) t ∧
    (m = .Put ∨ m = .Post → ∃ rest, BodyThen c headers.entries t body rest)

end

/-- The request is the one that the entry of the script expects. -/
def Met (e : ExpectedRequest) (m : HttpMethod) (target body : Bytes) : Prop :=
  e.expectedMethod = m ∧ e.expectedUri = target ∧ (m = .Put → e.expectedBody = body ∧ IsText body)

/-- The requests (method, target, body) are those of the script, in its order, and no more and no fewer; requests of other
methods than GET and PUT may come in between. -/
inductive Follows : List (HttpMethod × Bytes × Bytes) → List ExpectedRequest → Prop
  | nil : Follows [] []
  | met {m : HttpMethod} {target body : Bytes} {run : List (HttpMethod × Bytes × Bytes)} {e : ExpectedRequest}
      {script : List ExpectedRequest} : (m = .Get ∨ m = .Put) → Met e m target body → Follows run script →
      Follows ((m, target, body) :: run) (e :: script)
  | other {m : HttpMethod} {target body : Bytes} {run : List (HttpMethod × Bytes × Bytes)}
      {script : List ExpectedRequest} : m ≠ .Get ∧ m ≠ .Put → Follows run script → Follows ((m, target, body) :: run) script

/-- What a script has the server send in answer to the request that the entry expects. -/
def scripted (e : ExpectedRequest) : Bytes :=
  responseHead e.responseStatus.display (if e.expectedMethod = .Get then e.responseHeaders.entries else []) ++ e.responseBody

/-- A connection with a request that an entry of the script expects. -/
structure Awaited [CaseMap] {σ : Type} [LawfulReader σ] (c : Cfg) (P : σ → Prop) (s : σ) (e : ExpectedRequest) : Prop where
  ready : P s
  method : e.expectedMethod = .Get ∨ e.expectedMethod = .Put
  brings : Brings c s e.expectedMethod e.expectedUri e.expectedBody
  text : IsText e.expectedBody
  headers : SortedNames e.responseHeaders.entries ∧ ∀ kv ∈ e.responseHeaders.entries, CaseMap.lower kv.1 = kv.1

end HttpIo.Spec
