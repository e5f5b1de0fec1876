import Verif.Spec.Breaks

/-! Heads that are not decided yet. -/

namespace HttpIo.Spec

/-- The parser of heads is still waiting after `p`: no line is whole, or the first line is one that `ok` accepts, only
whole lines of text follow and perhaps the beginning of one more, none of them is the blank line, and after unfolding all
of the header lines are good, except perhaps the last of the whole ones. -/
def HeadOpen (ok : HttpIo.Bytes → Prop) (p : HttpIo.Bytes) : Prop :=
  ¬ HasCrLf p ∨ ∃ line raw logical part, RawLine line ∧ ok line ∧ (∀ l ∈ raw, RawLine l) ∧ Folded raw logical ∧
    (∀ l ∈ logical.dropLast, ∃ k v, HeaderLine l k v) ∧ ¬ HasCrLf part ∧
    p = (line :: raw).flatMap (· ++ [13, 10]) ++ part

end HttpIo.Spec
