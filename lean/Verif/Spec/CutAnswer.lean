import Verif.Spec.GotFrom

/-! Specification of an answer that breaks off on its way to the client: how it can be told that a body is whole. -/

namespace HttpIo.Spec

/-- The headers and the data show that the body is whole: it came in chunks and no error followed it, or it is as long as was said. -/
inductive ShownWhole (headers : List (HttpIo.Bytes × HttpIo.Bytes)) (d : HttpIo.Bytes) : Option Err → Prop
  | chunked : (utf8 "transfer-encoding", utf8 "chunked") ∈ headers → ShownWhole headers d none
  | limited {v r} : (utf8 "transfer-encoding", utf8 "chunked") ∉ headers → (utf8 "content-length", v) ∈ headers →
      UnsignedText 10 v d.length → ShownWhole headers d r

end HttpIo.Spec
