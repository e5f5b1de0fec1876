import Verif.Spec.Message
import Verif.Spec.Body

/-! Specification vocabulary for C124: with which calls a message is handed to the transport. -/

namespace HttpIo.Spec
open HttpIo

/-- `HTTP/1.1`, its name, dot and digits apart. -/
def versionParts : List Bytes := [utf8 "HTTP/", utf8 "1", utf8 ".", utf8 "1"]

/-- Header lines: name, colon and blank, value, end of the line. -/
def headerParts (entries : List (Bytes × Bytes)) : List Bytes :=
  entries.flatMap fun kv => [kv.1, [58, 32], kv.2, [13, 10]]

/-- The parts of the head of a request. -/
def requestParts (m : HttpMethod) (target : Bytes) (entries : List (Bytes × Bytes)) : List Bytes :=
  [utf8 (methodName m), [32], target, [32]] ++ versionParts ++ [[13, 10]] ++ headerParts entries ++ [[13, 10]]

/-- The parts of the head of a response. -/
def responseParts (statusText : Bytes) (entries : List (Bytes × Bytes)) : List Bytes :=
  versionParts ++ [[32], statusText, [13, 10]] ++ headerParts entries ++ [[13, 10]]

/-- The parts of a chunk. -/
def chunkParts (ch : Chunk) : List Bytes := [ch.size, [13, 10], ch.data, ch.tail]

/-- One `write` call for each part that is not empty. -/
def writesOf (parts : List Bytes) : List WCall := (parts.filter (· ≠ [])).map .write

/-- Whoever writes to the transport with `write_all` gets the provided method: it is not overridden. -/
def PlainWriteAll (σ : Type) [Writer σ] : Prop := ∀ (c : Cfg) (s : σ) (buf : Bytes), writeAll c s buf = defaultWriteAll c s buf

/-- The caller only writes. -/
def NoFlush (cs : List WCall) : Prop := WCall.flush ∉ cs

/-- A transport that takes everything and keeps a list of the calls. -/
structure Recorder where
  log : List WCall
deriving DecidableEq

end HttpIo.Spec
