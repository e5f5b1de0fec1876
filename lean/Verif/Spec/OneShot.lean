import Verif.Model.Client
import Verif.Model.Socket
import Verif.Spec.Url
import Verif.Spec.Breaks
import Verif.Spec.SendFails

/-! What a one-shot request may fail with (C101). -/

namespace HttpIo.Spec

/-- `e` is a reason for a one-shot request for `url` to fail, when the world is `w`, the network `N`, the errors of the
transports when writing are those of `F`, and `body` is what the body of the request does when read. One constructor per
place where it can fail, in the order of time. -/
inductive OneShotFails [CaseMap] {ω α ρ σ : Type} [LawfulReader ρ] [LawfulWriter σ] (c : Cfg)
    (N : StreamConnector ω α (Duplex ρ σ)) (F : Err → Prop) (body : List Ev) (w : ω) : Option Url → Err → Prop
  | noUrl : OneShotFails c N F body w none .parse
  | scheme {u : Url} : ¬ (PlainHttp u ∨ SecureHttp u) → OneShotFails c N F body w (some u) .parse
  | address {u : Url} {w' : ω} {e : Err} : N.toStreamAddr u w = (.err e, w') → OneShotFails c N F body w (some u) e
  | connect {u : Url} {a : α} {w1 w' : ω} {e : Err} : N.toStreamAddr u w = (.ok a, w1) → N.connect a w1 = (.err e, w') →
      OneShotFails c N F body w (some u) e
  | sending {u : Url} {a : α} {w1 w' : ω} {d : Duplex ρ σ} {e : Err} : N.toStreamAddr u w = (.ok a, w1) →
      N.connect a w1 = (.ok d, w') → F e ∨ e = tookNothing c → OneShotFails c N F body w (some u) e
  | body {u : Url} {a : α} {w1 w' : ω} {d : Duplex ρ σ} {e : Err} : N.toStreamAddr u w = (.ok a, w1) →
      N.connect a w1 = (.ok d, w') → .fault e ∈ body → OneShotFails c N F body w (some u) e
  | receiving {u : Url} {a : α} {w1 w' : ω} {d : Duplex ρ σ} {e : Err} : N.toStreamAddr u w = (.ok a, w1) →
      N.connect a w1 = (.ok d, w') → .fault e ∈ trace d.rd ∨ Malformed e → OneShotFails c N F body w (some u) e
  | status {u : Url} {a : α} {w1 w' : ω} {d d' d'' : Duplex ρ σ} {r : HttpResponse c (BufReader c (Duplex ρ σ))} :
      N.toStreamAddr u w = (.ok a, w1) → N.connect a w1 = (.ok d, w') → d'.rd = d.rd →
      HttpResponse.deserialize c d' = (.ok r, d'') → r.status.toCode ≠ 200 →
      OneShotFails c N F body w (some u) (.unexpectedStatus r.status)

end HttpIo.Spec
