import Verif.Spec.Body

/-! Specification vocabulary for the I/O layer: what a user of a writer does and what was accepted. -/

namespace HttpIo.Spec

/-- The caller makes these calls one after the other, going on after failures. For each call the number of bytes it
reported as accepted (`flush`: 0), or its error; and the writer afterwards. -/
def attempt {σ : Type} [FiniteWriter σ] : σ → List WCall → List (Except Err Nat) × σ
  | s, [] => ([], s)
  | s, .write buf :: cs =>
    ((FiniteWriter.write s buf).1 :: (attempt (FiniteWriter.write s buf).2 cs).1,
      (attempt (FiniteWriter.write s buf).2 cs).2)
  | s, .flush :: cs =>
    ((FiniteWriter.flush s).1.map (fun _ => 0) :: (attempt (FiniteWriter.flush s).2 cs).1,
      (attempt (FiniteWriter.flush s).2 cs).2)

/-- What the caller may regard as written: of each buffer, as many bytes as the call reported. -/
def acceptedBytes : List WCall → List (Except Err Nat) → Bytes
  | .write buf :: cs, .ok k :: rs => buf.take k ++ acceptedBytes cs rs
  | .write _ :: cs, .error _ :: rs => acceptedBytes cs rs
  | .flush :: cs, _ :: rs => acceptedBytes cs rs
  | _, _ => []

end HttpIo.Spec

namespace HttpIo.Spec

/-- Transports in the states described by `P` do not fail: they stay in such states, every `write` takes at least one
byte (or reports an interruption that the reader of the result repeats), `flush` and `write_all` succeed. -/
structure Reliable {σ : Type} [Writer σ] (c : Cfg) (P : σ → Prop) : Prop where
  write_next : ∀ s buf, P s → P (write s buf).2
  flush_next : ∀ s, P s → P (flush s).2
  writeAll_next : ∀ s buf, P s → P (writeAll c s buf).2
  write_ok : ∀ s buf, P s → buf ≠ [] →
    (∃ k, (write s buf).1 = .ok (k + 1)) ∨ ∃ e, (write s buf).1 = .error e ∧ Retried c e
  flush_ok : ∀ s, P s → (flush s).1 = .ok ()
  writeAll_ok : ∀ s buf, P s → (writeAll c s buf).1 = .ok ()

end HttpIo.Spec
