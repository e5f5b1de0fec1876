import Verif.Model.Client

/-! Specification vocabulary for the one-shot functions of the client. -/

namespace HttpIo.Spec

section
variable [CaseMap] {c : Cfg} {ω α σ ρ : Type} [LawfulReader σ] [Writer σ] [LawfulReader ρ]

/-- `done` is what a program obtains that takes what the client gave it (`asked`), copies `body` into the request, finishes it, and
takes every status but 200 for an error. -/
inductive OneShotLike (c : Cfg) (asked : Res (α × OutgoingRequest c σ) × HttpClient α σ × ω) (body : ρ)
    (done : Res (HttpBody c (BufReader c σ)) × ω) : Prop
  | failed {e : Err} {cl : HttpClient α σ} {w : ω} : asked = (.err e, cl, w) → done = (.err e, w) → OneShotLike c asked body done
  | panicked {cl : HttpClient α σ} {w : ω} : asked = (.panic, cl, w) → done = (.panic, w) → OneShotLike c asked body done
  | notCopied {a : α} {o o' : OutgoingRequest c σ} {cl : HttpClient α σ} {w : ω} {e : Err} {r : ρ} : asked = (.ok (a, o), cl, w) →
      copy c body o 0 = (.error e, r, o') → done = (.err e, w) → OneShotLike c asked body done
  | unanswered {a : α} {o o' : OutgoingRequest c σ} {cl : HttpClient α σ} {w : ω} {n : Nat} {r : ρ} {e : Err} :
      asked = (.ok (a, o), cl, w) → copy c body o 0 = (.ok n, r, o') → o'.finish.1 = .err e → done = (.err e, w) →
      OneShotLike c asked body done
  | broken {a : α} {o o' : OutgoingRequest c σ} {cl : HttpClient α σ} {w : ω} {n : Nat} {r : ρ} : asked = (.ok (a, o), cl, w) →
      copy c body o 0 = (.ok n, r, o') → o'.finish.1 = .panic → done = (.panic, w) → OneShotLike c asked body done
  | refused {a : α} {o o' : OutgoingRequest c σ} {cl : HttpClient α σ} {w : ω} {n : Nat} {r : ρ}
      {resp : HttpResponse c (BufReader c σ)} : asked = (.ok (a, o), cl, w) → copy c body o 0 = (.ok n, r, o') →
      o'.finish.1 = .ok resp → resp.status ≠ .OK → done = (.err (.unexpectedStatus resp.status), w) → OneShotLike c asked body done
  | answered {a : α} {o o' : OutgoingRequest c σ} {cl : HttpClient α σ} {w : ω} {n : Nat} {r : ρ}
      {resp : HttpResponse c (BufReader c σ)} : asked = (.ok (a, o), cl, w) → copy c body o 0 = (.ok n, r, o') →
      o'.finish.1 = .ok resp → resp.status = .OK → done = (.ok resp.body, w) → OneShotLike c asked body done

end

end HttpIo.Spec
