import Verif.Spec.Panic

/-! A transport that breaks off in the middle of a line. -/

namespace HttpIo.Spec

/-- The transport delivers the beginning of a line (perhaps nothing of it), never its end: it fails with `e` there, or
it ends there, and then `e` is the error for an end too soon. -/
def BreaksOff (c : Cfg) (t : List Ev) (e : Err) : Prop :=
  ∃ part t', Delivers c t part t' ∧ ¬ HasCrLf part ∧ ((∃ t'', Fails c t' e t'') ∨ (Ended c t' ∧ e = .unexpectedEof))

/-- Beginnings of heads: a start line that `ok` accepts, and whole header lines, all of them accepted. No blank line
follows. -/
def HeadBegun (ok : Bytes → Prop) (bs : Bytes) : Prop :=
  ∃ line raw logical, RawLine line ∧ ok line ∧ (∀ l ∈ raw, RawLine l) ∧ Folded raw logical ∧
    (∀ l ∈ logical, ∃ k v, HeaderLine l k v) ∧ bs = (line :: raw).flatMap (· ++ [13, 10])

/-- What the crate itself finds wrong with the bytes of a message. -/
inductive Malformed : Err → Prop
  | parse : Malformed .parse
  | parseInt : Malformed .parseInt
  | utf8 : Malformed .utf8
  | eof : Malformed .unexpectedEof

end HttpIo.Spec
