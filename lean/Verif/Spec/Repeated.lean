import Verif.Model.Listing
import Verif.Spec.Files
import Verif.Spec.Server

/-! What the statements of C164 need: the two file servers, and where an upload goes. -/

namespace HttpIo.Spec

section
variable [CaseMap] {c : Cfg} {σ : Type} [LawfulReader σ] [ZeroReader σ]

/-- `h` is one of the file servers of the crate, that of the documentation or that of the example, and serves `root`. -/
def IsFileServer (h : Handler c Fs σ Wire Err) (root : HttpIo.Bytes) : Prop :=
  (∃ errText, h = fileHandler c σ root errText) ∨ ∃ readDir errText, h = listingHandler c σ readDir root errText

/-- On the connection `s` there comes a PUT whose target leads to the place `p`; the root of the server is at `R`. -/
def UploadsTo (c : Cfg) (fs : Fs) (R : List HttpIo.Bytes) (s : σ) (p : List HttpIo.Bytes) : Prop :=
  ∃ r s1 cs, HttpRequest.deserialize c (BufReader.new c s) = (.ok r, s1) ∧ r.method = .Put ∧ TargetText r.uri cs ∧ Leads fs R cs p

end

end HttpIo.Spec
