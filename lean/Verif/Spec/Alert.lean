import Verif.Model.Tls

/-! Specification vocabulary for handshakes that are refused. -/

namespace HttpIo.Spec
variable {ε σ : Type}

/-- The same library, which notes when it has refused something that came in, and panics if it is made to write or to read after
that. So whoever lets it write what it has to say about the refusal is found out. -/
def guarded (t : Tls ε σ) : Tls (ε × Bool) σ where
  isHandshaking e := t.isHandshaking e.1
  wantsWrite e := t.wantsWrite e.1
  wantsRead e := t.wantsRead e.1
  writeTls e s := if e.2 then (.panic, e, s) else ((t.writeTls e.1 s).1, ((t.writeTls e.1 s).2.1, false), (t.writeTls e.1 s).2.2)
  readTls e s := if e.2 then (.panic, e, s) else ((t.readTls e.1 s).1, ((t.readTls e.1 s).2.1, false), (t.readTls e.1 s).2.2)
  process e := ((t.process e.1).1, (t.process e.1).2, match (t.process e.1).1 with | .err _ => true | _ => e.2)

/-- The handshake `x` of a library, as one of the library that notes refusals. -/
def unrefused : Shake ε σ → Shake (ε × Bool) σ
  | .at pc e s => .at pc (e, false) s
  | .done (.ok (e, s)) => .done (.ok ((e, false), s))
  | .done (.err x) => .done (.err x)
  | .done .panic => .done .panic

/-- The handshake is where something that comes in is refused, and the library has something to say about it (`e''`). -/
def RefusesAt (t : Tls ε σ) (x : Shake ε σ) (e'' : ε) : Prop :=
  ∃ e s k e' s' why, x = .at .reading e s ∧ t.isHandshaking e = true ∧ t.wantsRead e = true ∧ t.readTls e s = (.ok (k + 1), e', s') ∧
    t.process e' = (.err why, e'') ∧ t.wantsWrite e'' = true

end HttpIo.Spec
