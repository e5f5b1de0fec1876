import Verif.Spec.FileServer

/-! Specification of the file server of `examples/server.rs`: the answer and the files for any bytes whatsoever. -/

namespace HttpIo.Spec

/-- A number in decimal digits, without leading zeros. -/
inductive Shortest : Nat → HttpIo.Bytes → Prop
  | digit {d : Nat} : d < 10 → Shortest d [UInt8.ofNat (48 + d)]
  | more {n d : Nat} {ds : HttpIo.Bytes} : 0 < n → Shortest n ds → d < 10 → Shortest (n * 10 + d) (ds ++ [UInt8.ofNat (48 + d)])

/-- The items for these entries of the directory `p`, in this order. A name that is no text has none. -/
inductive Page (fs : Fs) (p : List HttpIo.Bytes) : List HttpIo.Bytes → HttpIo.Bytes → Prop
  | nil : Page fs p [] []
  | shown {n i items : HttpIo.Bytes} {names : List HttpIo.Bytes} : IsText n → EntryItem fs p n i → Page fs p names items →
      Page fs p (n :: names) (i ++ items)
  | passed {n items : HttpIo.Bytes} {names : List HttpIo.Bytes} : ¬ IsText n → Page fs p names items → Page fs p (n :: names) items

variable [CaseMap]

/-- What serving a connection that brings the bytes `input`, and then ends or fails, comes to: a file is sent with its length, a
directory as a page, and everything else is as with the server of the documentation. `readDir` gives the entries of a directory. -/
inductive ListingAnswers (c : Cfg) (errText : Err → HttpIo.Bytes) (readDir : Fs → List HttpIo.Bytes → List HttpIo.Bytes) (fs : Fs)
    (R : List HttpIo.Bytes) (stop : Option Err) (input : HttpIo.Bytes) : Res Unit → HttpIo.Bytes → Fs → Prop
  | file {target hist rest p content length} : Requests c stop input .Get target hist rest → Way fs R target (.ok p) →
      fs p = some (.file content) → Shortest content.length length →
      ListingAnswers c errText readDir fs R stop input (.ok ())
        (responseHead (utf8 "200 OK") [(utf8 "content-length", length)] ++ content) fs
  | directory {target hist rest p items} : Requests c stop input .Get target hist rest → Way fs R target (.ok p) →
      fs p = some .dir → Page fs p (readDir fs p) items →
      ListingAnswers c errText readDir fs R stop input (.ok ()) (responseHead (utf8 "200 OK") [] ++ pageText target items) fs
  | other {res out fs'} : (∀ target hist rest p, Requests c stop input .Get target hist rest → Way fs R target (.ok p) → fs p = none) →
      FileAnswers c errText fs R stop input res out fs' → ListingAnswers c errText readDir fs R stop input res out fs'

/-- Connections bring these bytes and then end or fail, one after the other: the result of serving each and what is sent on it, up to
the first that panics, and the files at the end. -/
inductive ListingHistory (c : Cfg) (errText : Err → HttpIo.Bytes) (readDir : Fs → List HttpIo.Bytes → List HttpIo.Bytes)
    (R : List HttpIo.Bytes) : Fs → List (HttpIo.Bytes × Option Err) → List (Res Unit × HttpIo.Bytes) → Fs → Prop
  | nil {fs} : ListingHistory c errText readDir R fs [] [] fs
  | panic {fs fs' stop input inputs out} : ListingAnswers c errText readDir fs R stop input .panic out fs' →
      ListingHistory c errText readDir R fs ((input, stop) :: inputs) [(.panic, out)] fs'
  | next {fs fs1 fs2 stop input inputs res out outs} : ListingAnswers c errText readDir fs R stop input res out fs1 → res ≠ .panic →
      ListingHistory c errText readDir R fs1 inputs outs fs2 →
      ListingHistory c errText readDir R fs ((input, stop) :: inputs) ((res, out) :: outs) fs2

end HttpIo.Spec
