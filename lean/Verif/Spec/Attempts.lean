import Verif.Spec.Remote
import Verif.Spec.Partly

/-! Specification of repeating a call until its answer comes. -/

namespace HttpIo.Spec

/-- A second call would change nothing and be answered as the first. -/
def Repeatable {κ : Type} (S : Service κ) (x : RemoteCall) (res : Res Unit) (out : HttpIo.Bytes) (k k1 : κ) : Prop :=
  res ≠ .panic ∧ CallDone S k x (res, out, k1) ∧ CallDone S k1 x (res, out, k1)

variable [CaseMap]

/-- The bytes ask for the call and for nothing else. -/
def AsksWholly (c : Cfg) (x : RemoteCall) (a : HttpIo.Bytes × Option Err) : Prop := ∀ q, AsksFor c a.2 a.1 q ↔ x.Asks q

/-- The bytes are answered somehow, but they do not change this state of the service. -/
def InVain {κ : Type} (c : Cfg) (errText : Err → HttpIo.Bytes) (S : Service κ) (k : κ) (a : HttpIo.Bytes × Option Err) : Prop :=
  ∃ res out, res ≠ .panic ∧ ServesOne c errText S k a.2 a.1 (res, out, k)

end HttpIo.Spec
