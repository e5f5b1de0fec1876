import Verif.Spec.Total
import Verif.Spec.Listing
import Verif.Spec.Message
import Verif.Spec.Panic
import Verif.Spec.Faults
import Verif.Spec.Server

/-! Specification of the file server of the documentation: the answer and the files for any bytes whatsoever. -/

namespace HttpIo.Spec

variable [CaseMap]

/-- The bytes begin with the head of a request of the method `m` for `target`, with the headers `hist`; `rest` follows, and then the
end or the failure. -/
def Requests (c : Cfg) (stop : Option Err) (input : HttpIo.Bytes) (m : HttpMethod) (target : HttpIo.Bytes) (hist : List (HttpIo.Bytes × HttpIo.Bytes))
    (rest : HttpIo.Bytes) : Prop :=
  ∃ line major minor, RequestLine line m target major minor ∧ HeadOf c (input.map .byte ++ endEvents stop) line hist (rest.map .byte ++ endEvents stop)

/-- `v` is the value of the last header with this name, compared in lower case. -/
def LastNamed (name : String) (hist : List (HttpIo.Bytes × HttpIo.Bytes)) (v : HttpIo.Bytes) : Prop :=
  LastWith (fun k => CaseMap.lower k = utf8 name) hist v

/-- The headers do not tell where a body ends. -/
def NoLength (hist : List (HttpIo.Bytes × HttpIo.Bytes)) : Prop :=
  ¬ LastNamed "transfer-encoding" hist (utf8 "chunked") ∧ ∀ v, ¬ LastNamed "content-length" hist v

/-- After a head with these headers the bytes `rest` come and then the end or a failure: the body, and the error that follows it, if
any. A body with a length that is cut off by the end just ends. -/
inductive Carried (c : Cfg) (stop : Option Err) (hist : List (HttpIo.Bytes × HttpIo.Bytes)) (rest : HttpIo.Bytes) :
    HttpIo.Bytes → Option Err → Prop
  | chunked {d : HttpIo.Bytes} {r : Option Err} : LastNamed "transfer-encoding" hist (utf8 "chunked") → Dechunks c stop rest d r →
      Carried c stop hist rest d r
  | limited {v : HttpIo.Bytes} {n : Nat} : ¬ LastNamed "transfer-encoding" hist (utf8 "chunked") → LastNamed "content-length" hist v →
      UnsignedText 10 v n → Carried c stop hist rest (rest.take n) (if rest.length < n then stop else none)

omit [CaseMap] in
/-- Where a target leads below the directory `R`, or the error of the operating system: EINVAL of `std` for a NUL, ENOTDIR, ELOOP,
ENOENT. -/
inductive Way (fs : Fs) (R : List HttpIo.Bytes) (target : HttpIo.Bytes) : Except Err (List HttpIo.Bytes) → Prop
  | nul : (0 : UInt8) ∈ target → Way fs R target (.error (.io .invalidInput))
  | blocked {cs : List HttpIo.Bytes} : (0 : UInt8) ∉ target → TargetText target cs → Blocked fs R cs →
      Way fs R target (.error (.io (.other 20)))
  | tangled {cs : List HttpIo.Bytes} : (0 : UInt8) ∉ target → TargetText target cs → Tangled fs R cs →
      Way fs R target (.error (.io (.other 40)))
  | nowhere {cs : List HttpIo.Bytes} : (0 : UInt8) ∉ target → TargetText target cs → ¬ Blocked fs R cs → ¬ Tangled fs R cs →
      (∀ p, ¬ Leads fs R cs p) → Way fs R target (.error (.io (.other 2)))
  | there {cs p : List HttpIo.Bytes} : (0 : UInt8) ∉ target → TargetText target cs → Leads fs R cs p → Way fs R target (.ok p)

/-- What serving a connection that brings the bytes `input`, and then ends or fails, comes to: the result, what is sent, and the files
afterwards. -/
inductive FileAnswers (c : Cfg) (errText : Err → HttpIo.Bytes) (fs : Fs) (R : List HttpIo.Bytes) (stop : Option Err)
    (input : HttpIo.Bytes) :
    Res Unit → HttpIo.Bytes → Fs → Prop
  | cut : CutRequest c (input.map .byte ++ endEvents stop) → FileAnswers c errText fs R stop input .panic [] fs
  | malformed {e} : RequestFault c (input.map .byte ++ endEvents stop) e →
      FileAnswers c errText fs R stop input (.ok ()) (responseHead (utf8 "500 Internal Server Error") [] ++ errText e) fs
  | noLength {m target hist rest} : Requests c stop input m target hist rest → m = .Put ∨ m = .Post → NoLength hist →
      FileAnswers c errText fs R stop input (.ok ()) (responseHead (utf8 "411 Length Required") [] ++ utf8 "length required") fs
  | refused {m target hist rest} : Requests c stop input m target hist rest → m ≠ .Get → m ≠ .Put → (m = .Post → ¬ NoLength hist) →
      FileAnswers c errText fs R stop input (.ok ()) (responseHead (utf8 "405 Method Not Allowed") [] ++ utf8 (refusal m)) fs
  | file {target hist rest p content} : Requests c stop input .Get target hist rest → Way fs R target (.ok p) →
      fs p = some (.file content) → FileAnswers c errText fs R stop input (.ok ()) (responseHead (utf8 "200 OK") [] ++ content) fs
  | directory {target hist rest p} : Requests c stop input .Get target hist rest → Way fs R target (.ok p) → fs p = some .dir →
      FileAnswers c errText fs R stop input (.err (.io (.other 21))) (responseHead (utf8 "200 OK") []) fs
  | noFile {target hist rest p} : Requests c stop input .Get target hist rest → Way fs R target (.ok p) → fs p = none →
      FileAnswers c errText fs R stop input (.ok ())
        (responseHead (utf8 "500 Internal Server Error") [] ++ errText (.io (.other 2))) fs
  | noWay {target hist rest e} : Requests c stop input .Get target hist rest → Way fs R target (.error e) →
      FileAnswers c errText fs R stop input (.ok ()) (responseHead (utf8 "500 Internal Server Error") [] ++ errText e) fs
  | noPut {target hist rest e} : Requests c stop input .Put target hist rest → ¬ NoLength hist → Way fs R target (.error e) →
      FileAnswers c errText fs R stop input (.ok ()) (responseHead (utf8 "500 Internal Server Error") [] ++ errText e) fs
  | onDirectory {target hist rest p} : Requests c stop input .Put target hist rest → ¬ NoLength hist → Way fs R target (.ok p) →
      fs p = some .dir →
      FileAnswers c errText fs R stop input (.ok ())
        (responseHead (utf8 "500 Internal Server Error") [] ++ errText (.io (.other 21))) fs
  | stored {target hist rest p d} : Requests c stop input .Put target hist rest → Way fs R target (.ok p) → Storable fs p →
      Carried c stop hist rest d none →
      FileAnswers c errText fs R stop input (.ok ()) (responseHead (utf8 "200 OK") []) (fun q => if q = p then some (.file d) else fs q)
  | broken {target hist rest p d e} : Requests c stop input .Put target hist rest → Way fs R target (.ok p) → Storable fs p →
      Carried c stop hist rest d (some e) →
      FileAnswers c errText fs R stop input (.ok ()) (responseHead (utf8 "500 Internal Server Error") [] ++ errText e)
        (fun q => if q = p then some (.file d) else fs q)

/-- Connections bring these bytes and then end or fail, one after the other: the result of serving each and what is sent on it, up to the first that
panics, and the files at the end. -/
inductive FileHistory (c : Cfg) (errText : Err → HttpIo.Bytes) (R : List HttpIo.Bytes) :
    Fs → List (HttpIo.Bytes × Option Err) → List (Res Unit × HttpIo.Bytes) → Fs → Prop
  | nil {fs} : FileHistory c errText R fs [] [] fs
  | panic {fs fs' stop input inputs out} : FileAnswers c errText fs R stop input .panic out fs' →
      FileHistory c errText R fs ((input, stop) :: inputs) [(.panic, out)] fs'
  | next {fs fs1 fs2 stop input inputs res out outs} : FileAnswers c errText fs R stop input res out fs1 → res ≠ .panic →
      FileHistory c errText R fs1 inputs outs fs2 → FileHistory c errText R fs ((input, stop) :: inputs) ((res, out) :: outs) fs2

omit [CaseMap] in
/-- What has something below it is a directory. -/
def Tree (fs : Fs) : Prop := fs [] = some .dir ∧ ∀ q n, fs (q ++ [n]) ≠ none → fs q = some .dir

end HttpIo.Spec
