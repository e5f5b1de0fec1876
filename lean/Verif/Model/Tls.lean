import Verif.Model.Base

/-! The handshakes of the rustls backend. The TLS library itself is not modelled: it is given by an arbitrary `Tls`.
The loops are modelled as small steps because nothing bounds them. -/

namespace HttpIo

/-- A `rustls::ClientConnection` or `rustls::ServerConnection` (state `ε`) over a transport (state `σ`): the six methods
src/ssl/rustls.rs:54-67 and 167-180 call. A `rustls::Error` or `io::Error` becomes `ssl::Error` (206-216), whose text
is dropped. -/
structure Tls (ε σ : Type) where
  isHandshaking : ε → Bool
  wantsWrite : ε → Bool
  wantsRead : ε → Bool
  writeTls : ε → σ → Res Nat × ε × σ
  readTls : ε → σ → Res Nat × ε × σ
  process : ε → Res Unit × ε

/-- Where a handshake is: at the head of the outer loop, of the loop that writes, of the loop that reads, or after the
loops (src/ssl/rustls.rs:54, 55, 59, 67 and 167, 175, 168, 180). -/
inductive Pc where
  | outer | writing | reading | after
deriving DecidableEq

/-- A handshake under way, or its result: the connection and the transport, an error, or a panic. -/
inductive Shake (ε σ : Type) where
  | at (pc : Pc) (e : ε) (s : σ)
  | done (r : Res (ε × σ))
deriving DecidableEq

namespace Tls
variable {ε σ : Type}

/-- One round of `while conn.wants_write() { assert_ne!(conn.write_tls(&mut stream)?, 0) }` (src/ssl/rustls.rs:55-57,
175-177), going on at `next` when there is nothing to write. -/
def writeRound (t : Tls ε σ) (next : Pc) (e : ε) (s : σ) : Shake ε σ :=
  if t.wantsWrite e then
    match t.writeTls e s with
    | (.ok 0, _, _) => .done .panic
    | (.ok (_ + 1), e', s') => .at .writing e' s'
    | (.err _, _, _) => .done (.err .ssl)
    | (.panic, _, _) => .done .panic
  else .at next e s

/-- One round of `while conn.is_handshaking() && conn.wants_read()` (src/ssl/rustls.rs:59-64, 168-173), going on at `next`
when the loop is left at its head. -/
def readRound (t : Tls ε σ) (next : Pc) (e : ε) (s : σ) : Shake ε σ :=
  if t.isHandshaking e && t.wantsRead e then
    match t.readTls e s with
    | (.ok 0, e', s') => .at .after e' s'
    | (.ok (_ + 1), e', s') =>
      match t.process e' with
      | (.ok (), e'') => .at .reading e'' s'
      | (.err _, _) => .done (.err .ssl)
      | (.panic, _) => .done .panic
    | (.err _, _, _) => .done (.err .ssl)
    | (.panic, _, _) => .done .panic
  else .at next e s

/-- The final check (src/ssl/rustls.rs:67-71, 180-184). -/
def finish (t : Tls ε σ) (e : ε) (s : σ) : Shake ε σ :=
  if t.isHandshaking e then .done (.err .ssl) else .done (.ok (e, s))

/-- One step of the client's handshake (src/ssl/rustls.rs:54-71): write, then read. -/
def clientStep (t : Tls ε σ) : Shake ε σ → Shake ε σ
  | .at .outer e s => .at (if t.isHandshaking e then .writing else .after) e s
  | .at .writing e s => t.writeRound .reading e s
  | .at .reading e s => t.readRound .outer e s
  | .at .after e s => t.finish e s
  | .done r => .done r

/-- One step of the server's handshake (src/ssl/rustls.rs:167-184): read, then write. -/
def serverStep (t : Tls ε σ) : Shake ε σ → Shake ε σ
  | .at .outer e s => .at (if t.isHandshaking e then .reading else .after) e s
  | .at .reading e s => t.readRound .writing e s
  | .at .writing e s => t.writeRound .outer e s
  | .at .after e s => t.finish e s
  | .done r => .done r

end Tls

/-- `n` steps. -/
def Shake.steps {ε σ : Type} (step : Shake ε σ → Shake ε σ) : Nat → Shake ε σ → Shake ε σ
  | 0, x => x
  | n + 1, x => Shake.steps step n (step x)

/-- `rustls::server::Acceptor` (state `α`): the methods src/ssl/rustls.rs:160-165 calls. `accept` is `accept()` with
`into_connection(config)`; `none` means that the ClientHello is not complete. -/
structure TlsAcceptor (α ε σ : Type) where
  new : α
  readTls : α → σ → Res Nat × α × σ
  accept : α → Res (Option α)
  intoConnection : α → Res ε

/-- `SslListener::get_conn_from_stream` up to the loop (src/ssl/rustls.rs:160-165): where the handshake starts. -/
def TlsAcceptor.start {α ε σ : Type} (a : TlsAcceptor α ε σ) (s : σ) : Shake ε σ :=
  match a.readTls a.new s with
  | (.err _, _, _) => .done (.err .ssl)
  | (.panic, _, _) => .done .panic
  | (.ok _, x, s') =>
    match a.accept x with
    | .err _ => .done (.err .ssl)
    | .panic => .done .panic
    | .ok none => .done (.err .ssl)
    | .ok (some y) =>
      match a.intoConnection y with
      | .err _ => .done (.err .ssl)
      | .panic => .done .panic
      | .ok e => .at .outer e s'

/-- `SslClientStream::new` (src/ssl/rustls.rs:44-72): whether it has returned after `n` steps, and what. `conn` is the
outcome of building the configuration, the server name and the `ClientConnection` (45-52). The result stands for
`StreamOwned::new(conn, stream)`. -/
def SslClientStream.new {ε σ : Type} (t : Tls ε σ) (conn : Res ε) (s : σ) (n : Nat) : Shake ε σ :=
  match conn with
  | .ok e => Shake.steps t.clientStep n (.at .outer e s)
  | .err _ => .done (.err .ssl)
  | .panic => .done .panic

/-- `SslListener::accept` (src/ssl/rustls.rs:191-197): whether it has returned after `n` steps of the handshake, and what.
`accepted` is the outcome of the inner listener's `accept`. -/
def SslListener.accept {α ε σ : Type} (a : TlsAcceptor α ε σ) (t : Tls ε σ) (accepted : Res σ) (n : Nat) : Shake ε σ :=
  match accepted with
  | .ok s => Shake.steps t.serverStep n (a.start s)
  | .err e => .done (.err e)
  | .panic => .done .panic

end HttpIo
