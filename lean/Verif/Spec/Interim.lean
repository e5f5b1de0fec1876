import Verif.Spec.Client
import Verif.Spec.Message

/-! Specification vocabulary for interim responses (RFC 7231 section 6.2). -/

namespace HttpIo.Spec

/-- A response with such a status is followed by another response to the same request. (After 101 the connection does
not carry HTTP any more.) -/
def Interim (st : HttpStatus) : Prop := 100 ≤ st.toCode ∧ st.toCode < 200 ∧ st.toCode ≠ 101

/-- The interim response `st` without a header, then the final response. -/
def afterInterim (st : HttpStatus) (final : Bytes) : Bytes := responseHead st.display [] ++ final

end HttpIo.Spec
