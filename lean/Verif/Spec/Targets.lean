import Verif.Spec.Files
import Verif.Spec.Text
import Verif.Spec.Codes

/-! Specification vocabulary for C129: which file a request target names, by RFC 7230 (5.3) and RFC 3986. -/

namespace HttpIo.Spec

/-- RFC 3986, section 2.1: `%` and two hexadecimal digits stand for a byte, every other byte for itself. -/
inductive PercentDecoded : Bytes → Bytes → Prop
  | nil : PercentDecoded [] []
  | plain {b : UInt8} {s t : Bytes} : b ≠ 37 → PercentDecoded s t → PercentDecoded (b :: s) (b :: t)
  | escape {h l : UInt8} {x y : Nat} {s t : Bytes} : DigitVal 16 h x → DigitVal 16 l y → PercentDecoded s t →
      PercentDecoded (37 :: h :: l :: s) (UInt8.ofNat (16 * x + y) :: t)

/-- The path of a request target: what comes before the query (RFC 7230, 5.3.1), and after scheme and authority if they are
there (5.3.2). -/
inductive TargetPath : Bytes → Bytes → Prop
  | origin {path : Bytes} : path.head? = some 47 → (63 : UInt8) ∉ path → TargetPath path path
  | query {path query : Bytes} : path.head? = some 47 → (63 : UInt8) ∉ path → TargetPath (path ++ [63] ++ query) path
  | absolute {authority target path : Bytes} : authority ≠ [] → (47 : UInt8) ∉ authority → (63 : UInt8) ∉ authority →
      target.head? = some 47 → TargetPath target path → TargetPath (utf8 "http://" ++ authority ++ target) path

/-- Each of the pieces, decoded. -/
inductive EachDecoded : List Bytes → List Bytes → Prop
  | nil : EachDecoded [] []
  | cons {r c : Bytes} {rs cs : List Bytes} : PercentDecoded r c → EachDecoded rs cs → EachDecoded (r :: rs) (c :: cs)

/-- The target names the file at the end of these components. -/
def TargetNames (target : Bytes) (cs : List Bytes) : Prop :=
  ∃ path raws, TargetPath target (47 :: path) ∧ PathText path raws ∧ EachDecoded raws cs

end HttpIo.Spec
