import Verif.Spec.Io

/-! Specification vocabulary for writes that are repeated after they failed. -/

namespace HttpIo.Spec

/-- Every write that fails leaves what was handed over as it was (`out` tells what that is); flushes may do as they like. -/
def FailsClean {σ : Type} [FiniteWriter σ] (out : σ → Bytes) : σ → List WCall → Prop
  | _, [] => True
  | s, .write buf :: cs =>
    (∀ e, (FiniteWriter.write s buf).1 = .error e → out (FiniteWriter.write s buf).2 = out s) ∧
      FailsClean out (FiniteWriter.write s buf).2 cs
  | s, .flush :: cs => FailsClean out (FiniteWriter.flush s).2 cs

/-- The writes among calls with these results all succeeded. -/
def WritesOk : List WCall → List (Except Err Nat) → Prop
  | .write buf :: cs, r :: rs => r = .ok buf.length ∧ WritesOk cs rs
  | .flush :: cs, _ :: rs => WritesOk cs rs
  | cs, rs => cs = [] ∧ rs = []

/-- `write_all` of this transport does not report an interruption; nobody repeats it then. So it is if it is the provided
method, which repeats interrupted writes itself. -/
def Unrepeated (c : Cfg) (σ : Type) [Writer σ] : Prop :=
  ∀ (s s' : σ) (buf : HttpIo.Bytes) (e : Err), Writer.writeAll c s buf = (.error e, s') → ¬ Retried c e

end HttpIo.Spec
