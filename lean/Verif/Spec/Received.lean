import Verif.Spec.FileServer

/-! Specification of the functions of the client: what comes of any bytes that a peer may send. -/

namespace HttpIo.Spec

/-- What comes of a call: a panic, an error, or a body, with the error that follows its data, if any. -/
inductive Fate where
  | panics
  | fails (e : Err)
  | body (d : HttpIo.Bytes) (r : Option Err)

/-- The status for a code is the one that has a name, if there is one. -/
def StatusFor (st : HttpStatus) (code : Nat) : Prop :=
  st.toCode.toNat = code ∧ ∀ st', st'.toCode.toNat = code → st' = st ∨ ∃ n, st' = .Unknown n

/-- A call came to this. -/
def FateIs {β : Type} [Reader β] (res : Res β) : Fate → Prop
  | .panics => res = .panic
  | .fails e => res = .err e
  | .body d none => ∃ x, res = .ok x ∧ Yields x d
  | .body d (some e) => ∃ x, res = .ok x ∧ FailsAfter x d e

variable [CaseMap]

/-- The bytes begin with the head of a response with this code and the headers `hist`; `rest` follows, and then the end or the
failure. -/
def Responds (c : Cfg) (stop : Option Err) (input : HttpIo.Bytes) (code : Nat) (hist : List (HttpIo.Bytes × HttpIo.Bytes)) (rest : HttpIo.Bytes) :
    Prop :=
  ∃ line major minor, StatusLine line major minor code ∧ HeadOf c (input.map .byte ++ endEvents stop) line hist (rest.map .byte ++ endEvents stop)

/-- The body of a response: as that of a request, but without a length it is all that follows. -/
inductive ReplyBody (c : Cfg) (stop : Option Err) (hist : List (HttpIo.Bytes × HttpIo.Bytes)) (rest : HttpIo.Bytes) :
    HttpIo.Bytes → Option Err → Prop
  | told {d r} : Carried c stop hist rest d r → ReplyBody c stop hist rest d r
  | tilClose : NoLength hist → ReplyBody c stop hist rest rest stop

/-- The peer sends these bytes, and then the connection ends or fails: what comes of the call. -/
inductive Received (c : Cfg) (stop : Option Err) (input : HttpIo.Bytes) : Fate → Prop
  | cut : CutResponse c (input.map .byte ++ endEvents stop) → Received c stop input .panics
  | none {e} : ResponseFault c (input.map .byte ++ endEvents stop) e → Received c stop input (.fails e)
  | status {code hist rest st} : Responds c stop input code hist rest → code ≠ 200 → StatusFor st code →
      Received c stop input (.fails (.unexpectedStatus st))
  | body {hist rest d r} : Responds c stop input 200 hist rest → ReplyBody c stop hist rest d r → Received c stop input (.body d r)

end HttpIo.Spec
