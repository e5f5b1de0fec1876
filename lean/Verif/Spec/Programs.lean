import Verif.Spec.Message
import Verif.Spec.Client
import Verif.Spec.Url
import Verif.Spec.Peer

/-! Specification vocabulary for the client programs of the examples. -/

namespace HttpIo.Spec

/-- After a head with these headers, a reader that repeats interrupted calls finds the whole body `bs`, in the framing that
the headers announce: the chunks and the last size line; as many bytes as declared; or all bytes up to the end. -/
inductive WholeBody (c : Cfg) (entries : List (Bytes × Bytes)) (t : List Ev) : Bytes → Prop
  | chunked {chs : List Chunk} {last : Bytes} {rest : List Ev} : FramedBy entries .chunked →
      (∀ ch ∈ chs, ch.WellFormed) → UnsignedText 16 last 0 → DeliversChunked c t chs last rest →
      WholeBody c entries t (chunkedData chs)
  | limited {bs : Bytes} {rest : List Ev} : FramedBy entries (.limited bs.length) → Delivers c t bs rest →
      WholeBody c entries t bs
  | tilClose {bs : Bytes} {rest : List Ev} : FramedBy entries .tilClose → Delivers c t bs rest → Ended c rest →
      WholeBody c entries t bs

/-- The bytes of a GET (no body) or PUT request for this URL with the body `up`, in whatever chunks. -/
def RequestFor (url : Url) (m : HttpMethod) (up bytes : Bytes) : Prop :=
  ∃ host, url.host = some host ∧
    if m = .Put then ∃ chs, (∀ ch ∈ chs, ch.WellFormed) ∧ chunkedData chs = up ∧
      bytes = requestHead .Put (requestTarget { url with query := none }) (standardHeaders .Put host) ++
        chunkedBytes chs (utf8 "0") ++ [13, 10]
    else up = [] ∧ bytes = requestHead m (requestTarget { url with query := none }) (standardHeaders m host)

/-- What the peer sends once it has received the whole request: a response head, and then the events `rest` (which may
depend on the chunks of the request). -/
def AnswersRequest (c : Cfg) (peer : Bytes → List Ev) (w : Bytes) (got : List Ev) (url : Url) (m : HttpMethod) (up : Bytes)
    (status : HttpStatus) (headers : HttpHeaders) (rest : List Ev → Prop) : Prop :=
  ∀ bytes, RequestFor url m up bytes → ∃ evs t, peer (w ++ bytes) = got ++ evs ∧
    Delivers c evs (responseHead status.display headers.entries) t ∧ rest t

/-- The URL can be asked for: the scheme is http or https, and there is a host. -/
structure Askable (url : Url) : Prop where
  ascii : AsciiText url.scheme
  scheme : PlainHttp url ∨ SecureHttp url
  host : ∃ h, url.host = some h

/-- A GET request for this path of the URL. -/
def getOf (url : Url) (path : Bytes) : Ask := ⟨false, { url with path }, [], []⟩

/-- What the example client is to send: nothing for a GET; for a PUT, the content of the file of that name if there is one
that can be opened, and else the text itself. -/
inductive Uploads (c : Cfg) {φ : Type} [LawfulReader φ] (openFile : Bytes → Option φ) (data : Bytes) : HttpMethod → Bytes → Prop
  | get : Uploads c openFile data .Get []
  | file {file : φ} {up : Bytes} {t' : List Ev} : openFile data = some file → Delivers c (trace file) up t' → Ended c t' →
      Uploads c openFile data .Put up
  | text : openFile data = none → Uploads c openFile data .Put data

end HttpIo.Spec
