import Verif.Spec.Received
import Verif.Spec.Programs

/-! Specification of the client programs of the examples: how they end and what they print, whatever the servers send. -/

namespace HttpIo.Spec

/-- How a program that prints the body ends, and what it has printed: what came of the body before it failed is printed. -/
def printed : Fate → Res Unit × HttpIo.Bytes
  | .panics => (.panic, [])
  | .fails e => (.err e, [])
  | .body d none => (.ok (), d)
  | .body d (some e) => (.err e, d)

/-- How a program ends that does not look at the body. -/
def unseen : Fate → Res Unit
  | .panics => .panic
  | .fails e => .err e
  | .body _ _ => .ok ()

/-- The body of the answer was read to its end. -/
def Whole : Fate → Prop
  | .body _ none => True
  | _ => False

end HttpIo.Spec
