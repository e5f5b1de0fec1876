import Verif.Spec.Attempts

/-! Specification of a call over the network that breaks off on its way to the server. -/

namespace HttpIo.Spec

/-- What a beginning of a call may come to: nothing that can be read as a request, the call with a body that has a
beginning of the data and then fails, or the call itself. -/
inductive RemoteCall.CutTo (x : RemoteCall) : Asked → Prop
  | panics : x.CutTo .panics
  | faulty {e} : x.CutTo (.faulty e)
  | upload {d e} : Hands x.method → d <+: x.data → x.CutTo (.upload x.method x.target d (some e))
  | whole {q} : x.Asks q → x.CutTo q

/-- The service does not change if the body of the call fails. -/
def RefusesCut {κ : Type} (S : Service κ) (x : RemoteCall) : Prop :=
  ∀ k d e, (S x.method x.target d (some e) k).1 ≠ .panic ∧ (S x.method x.target d (some e) k).2.2 = k

end HttpIo.Spec
