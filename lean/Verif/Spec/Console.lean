import Verif.Model.Console
import Verif.Spec.Codes

/-! What a server says about its connections. -/

namespace HttpIo.Spec

/-- The line about a connection that failed. -/
def complaint (debug : Err → Bytes) (e : Err) : Bytes := utf8 "Error " ++ debug e ++ utf8 "\n"

/-- The lines about connections that ended like this: one for each that failed, in their order. -/
def complaints {σ : Type} (debug : Err → Bytes) : List (Res Unit × σ) → Bytes
  | [] => []
  | (.err e, _) :: rest => complaint debug e ++ complaints debug rest
  | _ :: rest => complaints debug rest

/-- `D` describes an output that takes nothing, now and later: a pipe that nobody reads any more. -/
structure Shut {ο : Type} [Writer ο] (c : Cfg) (D : ο → Prop) : Prop where
  refuses : ∀ o buf, D o → buf ≠ [] → ∃ e, (writeAll c o buf).1 = .error e
  stays : ∀ o buf, D o → D (writeAll c o buf).2

end HttpIo.Spec
