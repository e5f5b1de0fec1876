import Verif.Spec.Service
import Verif.Spec.GotFrom
import Verif.Spec.EndToEnd

/-! Specification of calling a service over the network: it is as if the service had been called itself. -/

namespace HttpIo.Spec

/-- A call: the method, the target, and the data to upload. -/
structure RemoteCall where
  method : HttpMethod
  target : HttpIo.Bytes
  data : HttpIo.Bytes

/-- What the call is to ask of a server: the data is handed over for PUT and POST only. -/
def RemoteCall.Asks (x : RemoteCall) (q : Asked) : Prop :=
  (Hands x.method → q = .upload x.method x.target x.data none) ∧ (¬ Hands x.method → q = .plain x.method x.target)

/-- The service is called itself. -/
inductive CallDone {κ : Type} (S : Service κ) (k : κ) (x : RemoteCall) : Res Unit × HttpIo.Bytes × κ → Prop
  | handed : Hands x.method → CallDone S k x (S x.method x.target x.data none k)
  | plain : ¬ Hands x.method → CallDone S k x (S x.method x.target [] none k)

/-- The service is called again and again, up to the first panic. -/
inductive CallsDone {κ : Type} (S : Service κ) : κ → List RemoteCall → List (Res Unit × HttpIo.Bytes) → κ → Prop
  | nil {k} : CallsDone S k [] [] k
  | panic {k k' x xs out} : CallDone S k x (.panic, out, k') → CallsDone S k (x :: xs) [(.panic, out)] k'
  | next {k k1 k2 x xs res out outs} : CallDone S k x (res, out, k1) → res ≠ .panic → CallsDone S k1 xs outs k2 →
      CallsDone S k (x :: xs) ((res, out) :: outs) k2

end HttpIo.Spec
