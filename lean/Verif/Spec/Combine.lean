import Verif.Spec.Order

/-! Specification vocabulary for header fields that are combined into one (RFC 7230, section 3.2.2). -/

namespace HttpIo.Spec

/-- Of the fields `fs` the two next ones of a name are combined into one, in the place of the first of them, with their values
separated by a comma and a space; `first`, `second` are the two, `later` says that another field of that name follows. -/
structure Combined [CaseMap] (fs gs : List RawField) (first second : RawField) (later : Prop) : Prop where
  intro ::
  parts : ∃ pre mid post one, fs = pre ++ first :: (mid ++ second :: post) ∧ gs = pre ++ one :: (mid ++ post) ∧
    one.name = first.name ∧ one.value = first.value ++ [44, 32] ++ second.value ∧
    CaseMap.lower second.name = CaseMap.lower first.name ∧ (∀ f ∈ mid, CaseMap.lower f.name ≠ CaseMap.lower first.name) ∧
    (later ↔ ∃ f ∈ post, CaseMap.lower f.name = CaseMap.lower first.name)

end HttpIo.Spec
