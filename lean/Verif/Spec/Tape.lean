import Verif.Spec.Peer
import Verif.Spec.Server

/-! Specification vocabulary for the order in which a connection is used. -/

namespace HttpIo.Spec
open HttpIo

/-- A use of a connection. -/
inductive Use where
  | read (n : Nat)
  | write (buf : HttpIo.Bytes)
  | flush
deriving DecidableEq

/-- A connection, and how it has been used. A `write_all` counts as one write. -/
structure Tape (σ : Type) where
  inner : σ
  uses : List Use
deriving DecidableEq

instance {σ : Type} [LawfulReader σ] : LawfulReader (Tape σ) where
  read s n := ((read s.inner n).1, ⟨(read s.inner n).2, s.uses ++ [.read n]⟩)
  trace s := LawfulReader.trace s.inner
  read_step s n hn := LawfulReader.read_step s.inner n hn

instance {σ : Type} [LawfulReader σ] [ZeroReader σ] : ZeroReader (Tape σ) where
  read_zero s := ZeroReader.read_zero s.inner

instance {σ : Type} [Writer σ] : Writer (Tape σ) where
  write s buf := ((write s.inner buf).1, ⟨(write s.inner buf).2, s.uses ++ [.write buf]⟩)
  flush s := ((flush s.inner).1, ⟨(flush s.inner).2, s.uses ++ [.flush]⟩)
  patience s := patience s.inner
  write_ok h := by
    simp only [Prod.mk.injEq] at h
    obtain ⟨h1, h2⟩ := h
    subst h2
    exact FiniteWriter.write_ok (Prod.ext h1 rfl)
  write_err h := by
    simp only [Prod.mk.injEq] at h
    obtain ⟨h1, h2⟩ := h
    subst h2
    exact FiniteWriter.write_err (Prod.ext h1 rfl)
  flush_le s := FiniteWriter.flush_le s.inner
  writeAll c s buf := ((writeAll c s.inner buf).1, ⟨(writeAll c s.inner buf).2, s.uses ++ [.write buf]⟩)
  writeAll_le h := by
    simp only [Prod.mk.injEq] at h
    obtain ⟨h1, h2⟩ := h
    subst h2
    exact Writer.writeAll_le (Prod.ext h1 rfl)

/-- Nothing but reads. -/
def Listens (us : List Use) : Prop := ∀ u ∈ us, ∃ n, u = .read n

/-- No reads. -/
def Speaks (us : List Use) : Prop := ∀ u ∈ us, ∀ n, u ≠ .read n

end HttpIo.Spec
