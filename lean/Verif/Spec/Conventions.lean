import Verif.Spec.Message
import Verif.Spec.Body

/-! Specification vocabulary for C114 to C117: customs of HTTP that the crate does not follow. -/

namespace HttpIo.Spec

/-- After a head with these headers the whole body `bs` is there, as they announce it, and then `rest`. -/
inductive BodyThen (c : Cfg) (entries : List (Bytes × Bytes)) (t : List Ev) (bs : Bytes) (rest : List Ev) : Prop
  | chunked (chs : List Chunk) (last : Bytes) : FramedBy entries .chunked → (∀ ch ∈ chs, ch.WellFormed) →
      UnsignedText 16 last 0 → DeliversChunked c t chs last rest → chunkedData chs = bs → BodyThen c entries t bs rest
  | limited : FramedBy entries (.limited bs.length) → t = bs.map .byte ++ rest → BodyThen c entries t bs rest

/-- The codes of RFC 7231 (section 6.4) that send the client elsewhere. -/
def Redirects (status : HttpStatus) : Prop :=
  status.toCode.toNat = 301 ∨ status.toCode.toNat = 302 ∨ status.toCode.toNat = 303 ∨ status.toCode.toNat = 307 ∨
    status.toCode.toNat = 308

end HttpIo.Spec
