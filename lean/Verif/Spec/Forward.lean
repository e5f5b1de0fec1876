import Verif.Spec.Message

/-! Specification vocabulary for messages that are passed on. -/

namespace HttpIo.Spec

/-- What passing messages on needs of `str::to_lowercase` beyond `CaseMap`: it makes text of text, and no colon and no CR LF
out of text that has none. (In Unicode only letters are the lower case of something.) -/
structure CaseKeeps [CaseMap] : Prop where
  text : ∀ s, IsText s → IsText (CaseMap.lower s)
  colon : ∀ s, IsText s → (58 : UInt8) ∉ s → (58 : UInt8) ∉ CaseMap.lower s
  crlf : ∀ s, IsText s → ¬ HasCrLf s → ¬ HasCrLf (CaseMap.lower s)

/-- No header but the first has a name that begins with a blank. -/
def BlankFirst (entries : List (Bytes × Bytes)) : Prop := ∀ kv ∈ entries.tail, ¬ StartsBlank kv.1

end HttpIo.Spec
