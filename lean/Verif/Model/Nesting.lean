import Verif.Model.BodyLaws

/-! The calls that `HttpChunkedBody::read` makes of itself, one inside the other. -/

namespace HttpIo

variable {c : Cfg} {ρ : Type} [LawfulReader ρ] [ZeroReader ρ]

/-- `src/protocol.rs:71-98` up to the recursive calls: what is returned, or the body that `self.read(buffer)` is called with. -/
def HttpChunkedBody.step (b : HttpChunkedBody c ρ) (n : Nat) :
    (Except Err Bytes × HttpChunkedBody c ρ) ⊕ HttpChunkedBody c ρ :=
  match b.chunk with
  | some chunk =>
    match read chunk n with
    | (.error e, chunk') => .inl (.error e, { b with chunk := none, lost := some chunk'.inner })
    | (.ok [], chunk') =>
      match readExact c chunk'.inner 2 with
      | (.error e, s) => .inl (.error e, { b with chunk := none, lost := some s })
      | (.ok _, s) => .inr { b with chunk := none, stream := some s }
    | (.ok (x :: xs), chunk') => .inl (.ok (x :: xs), { b with chunk := some chunk' })
  | none =>
    match b.stream with
    | some stream =>
      match HttpBodyChunk.new c stream with
      | (.error e, s) => .inl (.error (c.toIo e), { b with stream := none, lost := some s })
      | (.ok (some chunk), _) => .inr { b with stream := none, chunk := some chunk }
      | (.ok none, s) => .inl (.ok [], { b with stream := none, lost := some s })
    | none => .inl (.ok [], b)

/-- The read of `n` bytes from the first body calls that of the second: `src/protocol.rs:80` (after a chunk was read to its end)
and `:90` (after the size of a chunk was read). -/
inductive HttpChunkedBody.Calls (n : Nat) : HttpChunkedBody c ρ → HttpChunkedBody c ρ → Prop
  | next {b : HttpChunkedBody c ρ} {chunk chunk' : Take ρ} {x : Bytes} {s : ρ} : b.chunk = some chunk →
      read chunk n = (.ok [], chunk') → readExact c chunk'.inner 2 = (.ok x, s) →
      Calls n b { b with chunk := none, stream := some s }
  | opened {b : HttpChunkedBody c ρ} {stream s : ρ} {chunk : Take ρ} : b.chunk = none → b.stream = some stream →
      HttpBodyChunk.new c stream = (.ok (some chunk), s) → Calls n b { b with stream := none, chunk := some chunk }

/-- The read of `n` bytes is `k` calls deep, itself included. -/
inductive HttpChunkedBody.Nests (n : Nat) : HttpChunkedBody c ρ → Nat → Prop
  | leaf {b : HttpChunkedBody c ρ} : (∀ b', ¬ HttpChunkedBody.Calls n b b') → Nests n b 1
  | call {b b' : HttpChunkedBody c ρ} {k : Nat} : HttpChunkedBody.Calls n b b' → Nests n b' k → Nests n b (k + 1)

end HttpIo
