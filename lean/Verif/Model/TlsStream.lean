import Verif.Model.Reader

/-!
A TLS stream after the handshake. `SslClientStream` and `SslServerStream` pass every call on to the TLS library
(`src/ssl/rustls.rs:75-122`, `src/ssl/openssl.rs:29-77`, `src/ssl/native_tls.rs:34-82`), which is not in the repository:
what is written to one end is what the library gives at the other end, in records.
-/

namespace HttpIo

/-- What a TLS library gives a client that reads: the plaintext of the records that have come, and then the end. `cut` is
what the library reports if the transport ends without the peer's `close_notify`: an error (a strict library; OpenSSL
since 3.0), or, if there is none, the end of the stream (OpenSSL before 3.0 through the `openssl` crate; the `Stream` of
`rustls` 0.20). Simplification: the error is reported once, where a library may repeat it. -/
def tlsInput (cut : Option Err) (notified : Bool) (records : List Bytes) : Wire :=
  ⟨records.map .data ++ if notified then [] else cut.toList.map .fault⟩

/-- Whether `close_notify` has been sent when `serve_one` has returned (`src/server.rs:199-212`) and the stream is gone:
no. Nothing in `src/ssl` or `src/server.rs` calls `send_close_notify` or `shutdown` or implements `Drop`, and the
libraries' streams are taken to send nothing when they are dropped. -/
def SslServerStream.notifies : Bool := false

end HttpIo
