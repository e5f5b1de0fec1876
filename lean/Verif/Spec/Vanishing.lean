import Verif.Spec.Listing

/-! Specification vocabulary for a directory that changes while it is listed. -/

namespace HttpIo.Spec

/-- The items of a listing of the directory `p` for these names, from the `i`-th on, when the `i`-th entry is looked at in
`during i`: one for every name that is text, in this order. -/
inductive Looked (during : Nat → Fs) (p : List Bytes) : Nat → List Bytes → List Bytes → Prop
  | none {i : Nat} : Looked during p i [] []
  | item {i : Nat} {n item : Bytes} {ns items : List Bytes} : IsText n → EntryItem (during i) p n item →
      Looked during p (i + 1) ns items → Looked during p i (n :: ns) (item :: items)
  | skip {i : Nat} {n : Bytes} {ns items : List Bytes} : ¬ IsText n → Looked during p (i + 1) ns items →
      Looked during p i (n :: ns) items

/-- One of the entries is gone when it is looked at, and its name is text. -/
def Vanished (during : Nat → Fs) (p names : List Bytes) : Prop :=
  ∃ i n, names[i]? = some n ∧ IsText n ∧ during i (p ++ [n]) = none

end HttpIo.Spec
