import Verif.Model.Reader

/-! Specification vocabulary for byte streams. -/

namespace HttpIo.Spec

/-- `Retried c e`: the standard library's own loops swallow this error and repeat the call. -/
def Retried (c : Cfg) (e : Err) : Prop := c.std = true ∧ e = .io .interrupted

/-- The pending events `t` deliver the bytes `bs` to a reader that repeats interrupted calls, and `t'` is what is
pending right after the last of these bytes. -/
inductive Delivers (c : Cfg) : List Ev → Bytes → List Ev → Prop
  | nil (t : List Ev) : Delivers c t [] t
  | byte (b : UInt8) {t t' : List Ev} {bs : Bytes} : Delivers c t bs t' → Delivers c (.byte b :: t) (b :: bs) t'
  | retry {e : Err} {t t' : List Ev} {b : UInt8} {bs : Bytes} : Retried c e → Delivers c t (b :: bs) t' →
      Delivers c (.fault e :: t) (b :: bs) t'

/-- Nothing but interrupted calls is pending: end of stream for a reader that repeats them. -/
def Ended (c : Cfg) (t : List Ev) : Prop := ∀ ev ∈ t, ∃ e, ev = .fault e ∧ Retried c e

/-- The next event a reader that repeats interrupted calls sees is the failure `e`, and `t'` follows. -/
def Fails (c : Cfg) (t : List Ev) (e : Err) (t' : List Ev) : Prop :=
  ¬ Retried c e ∧ ∃ pre, t = pre ++ .fault e :: t' ∧ Ended c pre

/-- `CR LF` occurs in `bs`. -/
def HasCrLf (bs : Bytes) : Prop := [13, 10] <:+: bs

end HttpIo.Spec
