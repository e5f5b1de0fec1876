import Verif.Spec.Crowd
import Verif.Spec.Files

/-! Specification vocabulary for a file server that clients visit one after the other. -/

namespace HttpIo.Spec

section
variable [CaseMap] (c : Cfg) {c' : Cfg} {η ρ ε : Type} [LawfulReader ρ] [ZeroReader ρ]

/-- A server that is visited by one client after the other. Each client has a connection of its own, with pipes that hold `ku`
and `kd` bytes, and the two run until both have finished; in between the bytes move in whatever order and portions. What the
server is sent is what the client writes, and the other way round. The handler goes on with what the visit before has left.
`Sessions self qs os self'`: the clients make the requests `qs`, their outcomes are `os`, and the handler ends as `self'`. -/
inductive Sessions (h : Handler c' η Sock ρ ε) (errText : Err → HttpIo.Bytes) (ku kd : Nat) :
    η → List Ask → List Outcome → η → Prop
  | none (self : η) : Sessions h errText ku kd self [] [] self
  | visit {self self' : η} {q : Ask} {qs : List Ask} {os : List Outcome} (req resp : HttpIo.Bytes) {n : Nat} (x : Link) :
      Link.Run (fun s => (q.run c s).2) (serving h errText self) req resp ku kd n .init x →
      Done (fun s => (q.run c s).2) (serving h errText self) req resp x →
      (x.clientEnd (fun s => (q.run c s).2) resp).out = req → (x.serverEnd (serving h errText self) req).out = resp →
      Sessions h errText ku kd (h.serveOne errText (.ok (Sock.start req false x.serverFed false x.serverRoom)) self).2.2
        qs os self' →
      Sessions h errText ku kd self (q :: qs)
        ((q.run c (Sock.start resp true x.clientFed x.clientEnded x.clientRoom)).1 :: os) self'

end

/-- The target of the request leads to `p`, where there is a file or nothing. -/
def LeadsTo (fs : Fs) (R : List HttpIo.Bytes) (q : Ask) (p : List HttpIo.Bytes) : Prop :=
  q.Readable ∧ (0 : UInt8) ∉ requestTarget { q.url with query := none } ∧
  (∃ cs, TargetText (requestTarget { q.url with query := none }) cs ∧ Leads fs R cs p) ∧ Storable fs p

/-- Nothing in `vs` is an upload to `p`. -/
def Untouched (vs : List (Ask × List HttpIo.Bytes)) (p : List HttpIo.Bytes) : Prop := ∀ v ∈ vs, v.2 = p → v.1.put = false

/-- After these requests, each with the place that its target leads to, there should be a file with this content at `p`: what
the last upload to `p` has written, and what was there if there was none. -/
def Current (fs : Fs) (vs : List (Ask × List HttpIo.Bytes)) (p : List HttpIo.Bytes) (content : HttpIo.Bytes) : Prop :=
  (∃ before q after, vs = before ++ (q, p) :: after ∧ q.put = true ∧ Untouched after p ∧ content = (written q.writes).flatten) ∨
  (Untouched vs p ∧ fs p = some (.file content))

/-- Clients of a file server, with the places that their targets lead to, in the order in which they are served: an upload is to
be answered with 200 and nothing, a download with 200 and what should be there. The server reads uploads but for the last end of
line. -/
def Served (fs : Fs) (vs : List (Guest × List HttpIo.Bytes)) : Prop :=
  ∀ before g p after, vs = before ++ (g, p) :: after →
    g.status = .OK ∧ g.headers = .new ∧ g.left = (if g.q.put then 2 else 0) ∧
    if g.q.put then g.bs = [] else Current fs (before.map fun v => (v.1.q, v.2)) p g.bs

end HttpIo.Spec
