import Verif.Spec.Peer

/-! Requests that a caller begins and drops, without asking for the response. -/

namespace HttpIo.Spec

/-- A caller that makes these calls on the outgoing request and then drops it. -/
def Ask.unfinished {c : Cfg} {σ : Type} [LawfulReader σ] [ZeroReader σ] [Writer σ] (q : Ask) : Exchange c σ Outcome :=
  ⟨q.put, some q.url, fun o => (.unsent, (perform o q.writes).2.dropped)⟩

/-- The bytes of the request up to where the caller dropped it. -/
def Ask.Begun (q : Ask) (bytes : HttpIo.Bytes) : Prop :=
  ∃ host, q.url.host = some host ∧
    if q.put then ∃ chs, ChunksFor chs (written q.writes) ∧
      bytes = requestHead .Put (requestTarget { q.url with query := none }) (standardHeaders .Put host) ++
        (chs.map Chunk.bytes).flatten
    else bytes = requestHead .Get (requestTarget { q.url with query := none }) (standardHeaders .Get host)

end HttpIo.Spec
