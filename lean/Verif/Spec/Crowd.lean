import Verif.Spec.Pipes

/-! Specification vocabulary for several clients that run at the same time as a server that serves them one after the other. -/

namespace HttpIo.Spec

/-- One of the clients: what it does, whether it keeps its connection open when it has what it wanted (it closes it otherwise),
how many bytes of its request the handler leaves unread, and what it is to be answered. -/
structure Guest where
  q : Ask
  holds : Bool
  left : Nat
  status : HttpStatus
  headers : HttpHeaders
  bs : HttpIo.Bytes

/-- A client as a program, with the bytes that go both ways. -/
structure Party where
  client : Sock → Sock
  req : HttpIo.Bytes
  resp : HttpIo.Bytes
  holds : Bool

/-- How far they have come: the connections, in the order in which the server accepts them, and how many the server is done with.
The next one is the one it serves. -/
structure Crowd where
  links : List Link
  served : Nat

section
variable (ps : List Party) (srv : List Link → Nat → Sock → Sock) (ku kd : Nat)

/-- A step on the connection of a client. -/
def Party.Moves (p : Party) (server : Sock → Sock) (x y : Link) : Prop :=
  if p.holds then HeldStep p.client server p.req p.resp ku kd x y else Link.Step p.client server p.req p.resp ku kd x y

/-- One step: on a connection that the server is done with or that it serves; on a connection that it has not accepted yet, where
nobody reads what the client writes; or the server goes on to the next connection. (`src/server.rs:199-247`. The operating system
is taken to keep any number of connections waiting.) -/
inductive Crowd.Step : Crowd → Crowd → Prop
  | move {x : Crowd} {p : Party} {a b : Link} (i : Nat) : ps[i]? = some p → x.links[i]? = some a → i ≤ x.served →
      p.Moves ku kd (srv x.links i) a b → Step x { x with links := x.links.set i b }
  | early {x : Crowd} {p : Party} {a b : Link} (i : Nat) : ps[i]? = some p → x.links[i]? = some a → x.served < i →
      p.Moves ku kd (fun s => s.wait (.read 1)) a b → b.serverFed = a.serverFed → Step x { x with links := x.links.set i b }
  | next {x : Crowd} {p : Party} {a : Link} : ps[x.served]? = some p → x.links[x.served]? = some a →
      (a.serverEnd (srv x.links x.served) p.req).waits = none → Step x { x with served := x.served + 1 }

/-- Several steps, counted. -/
inductive Crowd.Run : Nat → Crowd → Crowd → Prop
  | refl (x : Crowd) : Run 0 x x
  | step {n : Nat} {x y z : Crowd} : Run n x y → Crowd.Step ps srv ku kd y z → Run (n + 1) x z

/-- Every client has finished, and the server with it. -/
def Crowd.AllDone (x : Crowd) : Prop :=
  ∀ i p a, ps[i]? = some p → x.links[i]? = some a → Done p.client (srv x.links i) p.req p.resp a

end

section
variable [CaseMap] {c' : Cfg} {η ρ ε : Type} [LawfulReader ρ] [ZeroReader ρ]

/-- What the request does to the handler's state. -/
def Turns (h : Handler c' η Sock ρ ε) (q : Ask) (self : η) (reply : Reply ε (ServerResponse c' ρ)) (self' : η) : Prop :=
  let target := requestTarget { q.url with query := none }
  ∃ mid, (if q.put then ∀ body, Yields body (written q.writes).flatten → (h.put target body self).2.2 = mid
      else (h.get target self).2 = mid) ∧
    match reply with
    | .ok _ => ∀ b, h.release b mid = self'
    | _ => self' = mid

/-- The clients are answered like this, in this order. -/
inductive Agenda (h : Handler c' η Sock ρ ε) : η → List Guest → Prop
  | nil (self : η) : Agenda h self []
  | cons {self self' : η} {g : Guest} {gs : List Guest} {reply : Reply ε (ServerResponse c' ρ)} {r : ServerResponse c' ρ} :
      g.q.Readable → Treats h g.q self reply g.left → AnswerIs h reply r → Answers r g.bs → r.status = g.status → r.headers = g.headers →
      Turns h g.q self reply self' → Agenda h self' gs → Agenda h self (g :: gs)

/-- Clients that make requests at the same time, and a server in its loop. In whatever order and in whatever portions the bytes
move, and whenever the server goes on, only a bounded number of steps is possible, and as long as a client has not finished a
step is possible. Every client gets its answer; nothing fails on the server. -/
def AllServed (c : Cfg) (h : Handler c' η Sock ρ ε) (errText : Err → HttpIo.Bytes) (self : η) (gs : List Guest) (ku kd : Nat) : Prop :=
  ∃ reqs : List HttpIo.Bytes, reqs.length = gs.length ∧
    (∀ (i : Nat) (g : Guest) (req : HttpIo.Bytes), gs[i]? = some g → reqs[i]? = some req → g.q.Bytes req) ∧
    let ps := List.zipWith (fun (g : Guest) req =>
      (⟨fun s => (g.q.run c s).2, req, responseHead g.status.display g.headers.entries ++ g.bs, g.holds⟩ : Party)) gs reqs
    let socks := fun links => List.zipWith (fun req (x : Link) => Res.ok (Sock.start req false x.serverFed false x.serverRoom)) reqs links
    let srv := fun links i => serving h errText (h.serveForever errText ((socks links).take i) self).2
    ∀ n x, Crowd.Run ps srv ku kd n ⟨gs.map fun _ => .init, 0⟩ x →
      n ≤ (ps.map fun p => 2 * (p.req.length + p.resp.length) + 2).sum ∧
      (x.AllDone ps srv ∨ ∃ y, Crowd.Step ps srv ku kd x y) ∧
      (∀ res ∈ (h.serveForever errText (socks x.links) self).1, res.1 = .ok ()) ∧
      ∀ (i : Nat) (g : Guest) (p : Party) (a : Link), gs[i]? = some g → ps[i]? = some p → x.links[i]? = some a →
        (a.clientEnd p.client p.resp).out = p.req ∧ (a.serverEnd (srv x.links i) p.req).out = p.resp ∧
        ∃ rs, (g.q.run c (Sock.start p.resp true a.clientFed a.clientEnded a.clientRoom)).1 =
          .got (HttpStatus.fromCode g.status.toCode) g.headers rs ∧ (g.bs.length < g.q.sizes.length → ReadAll rs g.bs)

end

end HttpIo.Spec
