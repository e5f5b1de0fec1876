import Verif.Model.Client

/-!
Streams that can be read and written. `StreamEither` (`src/client.rs:162-190`) keeps the contracts of its parts.
`Duplex` is a stand-in for a socket whose receiving and sending halves are separate.
-/

namespace HttpIo
open Spec

section
variable {α β : Type}

theorem StreamEither.read_def [Reader α] [Reader β] (s : StreamEither α β) (n : Nat) :
    read s n = s.readImpl n := rfl

instance [LawfulReader α] [LawfulReader β] : LawfulReader (StreamEither α β) where
  trace
    | .A a => trace a
    | .B b => trace b
  read_step s n hn := by
    rw [StreamEither.read_def]
    cases s with
    | A a => exact LawfulReader.read_step a n hn
    | B b => exact LawfulReader.read_step b n hn

instance [LawfulReader α] [LawfulReader β] [ZeroReader α] [ZeroReader β] : ZeroReader (StreamEither α β) where
  read_zero s := by
    rw [StreamEither.read_def]
    cases s with
    | A a => exact ZeroReader.read_zero a
    | B b => exact ZeroReader.read_zero b

instance [FiniteWriter α] [FiniteWriter β] : FiniteWriter (StreamEither α β) where
  write := StreamEither.writeImpl
  flush := StreamEither.flushImpl
  patience
    | .A a => patience a
    | .B b => patience b
  write_ok {s s'} buf k h := by
    unfold StreamEither.writeImpl at h
    cases s with
    | A a =>
      simp only [Prod.mk.injEq] at h
      rw [← h.2]
      exact FiniteWriter.write_ok (s := a) (s' := (write a buf).2) (Prod.ext h.1 rfl)
    | B b =>
      simp only [Prod.mk.injEq] at h
      rw [← h.2]
      exact FiniteWriter.write_ok (s := b) (s' := (write b buf).2) (Prod.ext h.1 rfl)
  write_err {s s'} buf e h := by
    unfold StreamEither.writeImpl at h
    cases s with
    | A a =>
      simp only [Prod.mk.injEq] at h
      rw [← h.2]
      exact FiniteWriter.write_err (s := a) (s' := (write a buf).2) (Prod.ext h.1 rfl)
    | B b =>
      simp only [Prod.mk.injEq] at h
      rw [← h.2]
      exact FiniteWriter.write_err (s := b) (s' := (write b buf).2) (Prod.ext h.1 rfl)
  flush_le s := by
    cases s with
    | A a => exact FiniteWriter.flush_le a
    | B b => exact FiniteWriter.flush_le b

/-- What was accepted by whichever stream it is. -/
def StreamEither.sentImpl [LawfulWriter α] [LawfulWriter β] : StreamEither α β → Bytes
  | .A a => sent a
  | .B b => sent b

/-- What is on the wire of whichever stream it is. -/
def StreamEither.wireImpl [LawfulWriter α] [LawfulWriter β] : StreamEither α β → Bytes
  | .A a => wire a
  | .B b => wire b

/-- `write_all` is the provided method: `src/client.rs:176-190` does not override it. -/
instance [LawfulWriter α] [LawfulWriter β] : LawfulWriter (StreamEither α β) :=
  LawfulWriter.ofContract (StreamEither α β) StreamEither.sentImpl StreamEither.wireImpl
    (fun s => by
      cases s with
      | A a => exact LawfulWriter.wire_sent a
      | B b => exact LawfulWriter.wire_sent b)
    { write_wire := fun s buf => by
        cases s with
        | A a => exact LawfulWriter.write_wire a buf
        | B b => exact LawfulWriter.write_wire b buf
      write_ok_sent := fun {s s' buf k} h => by
        replace h : s.writeImpl buf = (.ok k, s') := h
        unfold StreamEither.writeImpl at h
        cases s with
        | A a =>
          simp only [Prod.mk.injEq] at h
          rw [← h.2]
          exact LawfulWriter.write_ok_sent (s := a) (s' := (write a buf).2) (Prod.ext h.1 rfl)
        | B b =>
          simp only [Prod.mk.injEq] at h
          rw [← h.2]
          exact LawfulWriter.write_ok_sent (s := b) (s' := (write b buf).2) (Prod.ext h.1 rfl)
      write_err_sent := fun {s s' buf e} h => by
        replace h : s.writeImpl buf = (.error e, s') := h
        unfold StreamEither.writeImpl at h
        cases s with
        | A a =>
          simp only [Prod.mk.injEq] at h
          rw [← h.2]
          exact LawfulWriter.write_err_sent (s := a) (s' := (write a buf).2) (Prod.ext h.1 rfl)
        | B b =>
          simp only [Prod.mk.injEq] at h
          rw [← h.2]
          exact LawfulWriter.write_err_sent (s := b) (s' := (write b buf).2) (Prod.ext h.1 rfl) }
    (fun s => by
      cases s with
      | A a => exact LawfulWriter.flush_sent a
      | B b => exact LawfulWriter.flush_sent b)
    (fun s => by
      cases s with
      | A a => exact LawfulWriter.flush_wire a
      | B b => exact LawfulWriter.flush_wire b)
    (fun {s s'} h => by
      replace h : s.flushImpl = (.ok (), s') := h
      unfold StreamEither.flushImpl at h
      cases s with
      | A a =>
        simp only [Prod.mk.injEq] at h
        rw [← h.2]
        exact LawfulWriter.flush_ok_wire (s := a) (s' := (flush a).2) (Prod.ext h.1 rfl)
      | B b =>
        simp only [Prod.mk.injEq] at h
        rw [← h.2]
        exact LawfulWriter.flush_ok_wire (s := b) (s' := (flush b).2) (Prod.ext h.1 rfl))

end

/-- A socket made of a receiving half and a sending half (`TcpStream` as far as the crate can tell when the peer's
bytes do not depend on what is sent). Not in the repository. -/
structure Duplex (ρ σ : Type) where
  rd : ρ
  wr : σ
deriving DecidableEq, Repr

section
variable {ρ σ : Type}

/-- Reading uses the receiving half. -/
instance [Reader ρ] : Reader (Duplex ρ σ) := { read := fun s n => match read s.rd n with | (r, rd) => (r, { s with rd }) }

theorem Duplex.read_def [Reader ρ] (s : Duplex ρ σ) (n : Nat) :
    read s n = ((read s.rd n).1, { s with rd := (read s.rd n).2 }) := rfl

instance [LawfulReader ρ] : LawfulReader (Duplex ρ σ) where
  trace s := trace s.rd
  read_step s n hn := by
    rw [Duplex.read_def]
    exact LawfulReader.read_step s.rd n hn

theorem Duplex.trace_eq [LawfulReader ρ] (s : Duplex ρ σ) : trace s = trace s.rd := rfl

instance [LawfulReader ρ] [ZeroReader ρ] : ZeroReader (Duplex ρ σ) where
  read_zero s := by
    rw [Duplex.read_def]
    exact ZeroReader.read_zero s.rd

/-- Writing uses the sending half. -/
instance [FiniteWriter σ] : FiniteWriter (Duplex ρ σ) where
  write s buf := ((write s.wr buf).1, { s with wr := (write s.wr buf).2 })
  flush s := ((flush s.wr).1, { s with wr := (flush s.wr).2 })
  patience s := patience s.wr
  write_ok {s s'} buf k h := by
    simp only [Prod.mk.injEq] at h
    rw [← h.2]
    exact FiniteWriter.write_ok (s := s.wr) (s' := (write s.wr buf).2) (Prod.ext h.1 rfl)
  write_err {s s'} buf e h := by
    simp only [Prod.mk.injEq] at h
    rw [← h.2]
    exact FiniteWriter.write_err (s := s.wr) (s' := (write s.wr buf).2) (Prod.ext h.1 rfl)
  flush_le s := FiniteWriter.flush_le s.wr

theorem Duplex.write_def [FiniteWriter σ] (s : Duplex ρ σ) (buf : Bytes) :
    write s buf = ((write s.wr buf).1, { s with wr := (write s.wr buf).2 }) := rfl
theorem Duplex.flush_def [FiniteWriter σ] (s : Duplex ρ σ) :
    flush s = ((flush s.wr).1, { s with wr := (flush s.wr).2 }) := rfl

instance [Writer σ] : Writer (Duplex ρ σ) where
  writeAll c s buf := ((writeAll c s.wr buf).1, { s with wr := (writeAll c s.wr buf).2 })
  writeAll_le {c s s'} buf r h := by
    simp only [Prod.mk.injEq] at h
    rw [← h.2]
    exact Writer.writeAll_le (s := s.wr) (s' := (writeAll c s.wr buf).2) (Prod.ext h.1 rfl)

theorem Duplex.writeAll_def [Writer σ] (c : Cfg) (s : Duplex ρ σ) (buf : Bytes) :
    writeAll c s buf = ((writeAll c s.wr buf).1, { s with wr := (writeAll c s.wr buf).2 }) := rfl

instance [LawfulWriter σ] : LawfulWriter (Duplex ρ σ) where
  sent s := sent s.wr
  wire s := wire s.wr
  wire_sent s := LawfulWriter.wire_sent s.wr
  write_wire s buf := LawfulWriter.write_wire s.wr buf
  write_ok_sent {s s' buf k} h := by
    rw [Duplex.write_def] at h
    simp only [Prod.mk.injEq] at h
    rw [← h.2]
    exact LawfulWriter.write_ok_sent (s := s.wr) (s' := (write s.wr buf).2) (Prod.ext h.1 rfl)
  write_err_sent {s s' buf e} h := by
    rw [Duplex.write_def] at h
    simp only [Prod.mk.injEq] at h
    rw [← h.2]
    exact LawfulWriter.write_err_sent (s := s.wr) (s' := (write s.wr buf).2) (Prod.ext h.1 rfl)
  writeAll_wire c s buf := LawfulWriter.writeAll_wire c s.wr buf
  writeAll_ok_sent {c s s' buf} h := by
    rw [Duplex.writeAll_def] at h
    simp only [Prod.mk.injEq] at h
    rw [← h.2]
    exact LawfulWriter.writeAll_ok_sent (s := s.wr) (s' := (writeAll c s.wr buf).2) (Prod.ext h.1 rfl)
  writeAll_err_sent {c s s' buf e} h := by
    rw [Duplex.writeAll_def] at h
    simp only [Prod.mk.injEq] at h
    rw [← h.2]
    exact LawfulWriter.writeAll_err_sent (s := s.wr) (s' := (writeAll c s.wr buf).2) (Prod.ext h.1 rfl)
  flush_sent s := LawfulWriter.flush_sent s.wr
  flush_wire s := LawfulWriter.flush_wire s.wr
  flush_ok_wire {s s'} h := by
    rw [Duplex.flush_def] at h
    simp only [Prod.mk.injEq] at h
    rw [← h.2]
    exact LawfulWriter.flush_ok_wire (s := s.wr) (s' := (flush s.wr).2) (Prod.ext h.1 rfl)

theorem Duplex.sent_eq [LawfulWriter σ] (s : Duplex ρ σ) : sent s = sent s.wr := rfl
theorem Duplex.wire_eq [LawfulWriter σ] (s : Duplex ρ σ) : wire s = wire s.wr := rfl

end

end HttpIo
