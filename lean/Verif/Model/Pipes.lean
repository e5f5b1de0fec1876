import Verif.Model.Socket

/-!
A blocking socket over pipes of bounded size, and two programs connected by such pipes. Not in the repository: stands in
for `TcpStream` and the two buffers of the operating system, which the crate's code runs over.
-/

namespace HttpIo

/-- What a program waits for: bytes to read into a buffer of this size, or room for (some of) these bytes. -/
inductive Await where
  | read (n : Nat)
  | write (buf : Bytes)
deriving DecidableEq, Repr

/-- One end of the connection as a program sees it. `fed` and `room` are the answers that the program has got so far from
the operating system, as numbers of bytes: how many bytes its calls of `read` were given, and how many bytes its calls of
`write` were relieved of; `ended` says whether it was told that the peer has closed. The first call for which there is no
answer yet is where the program waits: it is recorded in `waits`, and nothing that happens later changes that. (A call
that blocks does not return. Here it returns what it will return one day, so that the program, which is a function, has a
value; the calls before it are answered without that.) `input` is what the peer sends and the program has not yet read,
`closes` whether the peer closes after that; `out` is what the program writes. -/
structure Sock where
  input : Bytes
  closes : Bool
  fed : List Nat
  ended : Bool
  out : Bytes
  room : List Nat
  waits : Option Await
deriving DecidableEq, Repr

/-- The error of a read that is never answered. -/
def Sock.hang : Err := .io (.other 1)

/-- The first `n` bytes of a list of numbers of bytes, gone. -/
def spend (n : Nat) : List Nat → List Nat
  | [] => []
  | k :: ks => if k ≤ n then ks else (k - n) :: ks

/-- Here the program waits, unless it waits already. -/
def Sock.wait (s : Sock) (a : Await) : Sock := if s.waits = none then { s with waits := some a } else s

/-- `read`: an empty buffer is not filled. At most one answer is used by a call. -/
def Sock.readImpl (s : Sock) (n : Nat) : Except Err Bytes × Sock :=
  if n = 0 then (.ok [], s)
  else if s.input = [] then
    let s' := if s.ended then s else s.wait (.read n)
    if s.closes then (.ok [], s') else (.error Sock.hang, { s' with closes := true })
  else
    match s.waits, s.fed with
    | none, (k + 1) :: _ =>
      (.ok (s.input.take (min n (k + 1))), { s with input := s.input.drop (min n (k + 1)), fed := spend n s.fed })
    | _, _ => (.ok (s.input.take n), { s.wait (.read n) with input := s.input.drop n })

/-- `write`: nothing is nothing. At most one answer is used by a call. -/
def Sock.writeImpl (s : Sock) (buf : Bytes) : Except Err Nat × Sock :=
  if buf = [] then (.ok 0, s)
  else
    match s.waits, s.room with
    | none, (k + 1) :: _ =>
      (.ok (min (k + 1) buf.length),
        { s with out := s.out ++ buf.take (k + 1), room := spend buf.length s.room })
    | _, _ => (.ok buf.length, { s.wait (.write buf) with out := s.out ++ buf })

instance : LawfulReader Sock where
  read := Sock.readImpl
  trace s := s.input.map .byte ++ if s.closes then [] else [.fault Sock.hang]
  read_step s n hn := by
    unfold Sock.readImpl
    rw [if_neg (show ¬ n = 0 by omega)]
    by_cases hi : s.input = []
    · rw [if_pos hi]
      have hw : ∀ a, (s.wait a).input = s.input ∧ (s.wait a).closes = s.closes := by
        intro a; unfold Sock.wait; split <;> exact ⟨rfl, rfl⟩
      have h1 : (if s.ended then s else s.wait (.read n)).input = [] ∧
          (if s.ended then s else s.wait (.read n)).closes = s.closes := by
        split
        · exact ⟨hi, rfl⟩
        · exact ⟨by rw [(hw _).1, hi], (hw _).2⟩
      dsimp only
      generalize (if s.ended then s else s.wait (.read n)) = s' at h1
      obtain ⟨h1, h2⟩ := h1
      by_cases hc : s.closes = true
      · simp only [if_pos hc]
        rw [h1, h2, if_pos hc, hi]
        exact .eof n
      · simp only [if_neg hc]
        rw [h1, hi]
        exact .fault _ _ n
    · rw [if_neg hi]
      have hw : ∀ a, (s.wait a).closes = s.closes := by
        intro a; unfold Sock.wait; split <;> rfl
      have key : ∀ (m : Nat) (t : List Ev), 0 < m → m ≤ n →
          ReadStep (s.input.map .byte ++ t) n (.ok (s.input.take m)) ((s.input.drop m).map .byte ++ t) := by
        intro m t h1 h2
        have := ReadStep.data (s.input.take m) ((s.input.drop m).map .byte ++ t) n
          (by cases hs : s.input with
              | nil => exact absurd hs hi
              | cons x xs => cases m with
                | zero => omega
                | succ m => simp)
          (by rw [List.length_take]; omega)
        rwa [← List.append_assoc, ← List.map_append, List.take_append_drop] at this
      have last : ReadStep (s.input.map .byte ++ if s.closes then [] else [.fault Sock.hang]) n (.ok (s.input.take n))
          ((s.input.drop n).map .byte ++ if (s.wait (.read n)).closes then [] else [.fault Sock.hang]) := by
        rw [hw]; exact key _ _ hn (Nat.le_refl _)
      rcases s.waits with _ | a
      · rcases s.fed with _ | ⟨_ | k, ks⟩
        · exact last
        · exact last
        · exact key _ _ (by omega) (by omega)
      · exact last

theorem Sock.read_def (s : Sock) (n : Nat) : read s n = s.readImpl n := rfl
theorem Sock.trace_eq (s : Sock) : trace s = s.input.map .byte ++ if s.closes then [] else [.fault Sock.hang] := rfl

instance : ZeroReader Sock where
  read_zero s := .inl (by rw [Sock.read_def]; unfold Sock.readImpl; rw [if_pos rfl]; exact ⟨rfl, rfl⟩)

instance : FiniteWriter Sock where
  write := Sock.writeImpl
  flush s := (.ok (), s)
  patience _ := 0
  write_ok {s s'} buf k h := by
    unfold Sock.writeImpl at h
    split at h
    · simp only [Prod.mk.injEq, Except.ok.injEq] at h; rw [← h.1]; simp
    · split at h <;> simp only [Prod.mk.injEq, Except.ok.injEq] at h <;> rw [← h.1] <;> simp
      omega
  write_err {s s'} buf e h := by
    unfold Sock.writeImpl at h
    split at h
    · simp at h
    · split at h <;> simp at h
  flush_le _ := Nat.le_refl _

theorem Sock.write_def (s : Sock) (buf : Bytes) : write s buf = s.writeImpl buf := rfl

theorem Sock.write_out {s s' : Sock} {buf : Bytes} {k : Nat} (h : write s buf = (.ok k, s')) :
    s'.out = s.out ++ buf.take k := by
  rw [Sock.write_def] at h
  unfold Sock.writeImpl at h
  split at h
  · simp only [Prod.mk.injEq, Except.ok.injEq] at h; rw [← h.1, ← h.2]; simp
  · split at h <;> simp only [Prod.mk.injEq, Except.ok.injEq] at h <;> rw [← h.1, ← h.2] <;> dsimp only
    · congr 1; rw [List.take_eq_take_iff]; omega
    · rw [List.take_length]

instance : LawfulWriter Sock :=
  LawfulWriter.ofContract Sock Sock.out Sock.out (fun _ => List.prefix_refl _)
    { write_wire := fun s buf => by
        rcases h : write s buf with ⟨e | k, s'⟩
        · rw [Sock.write_def] at h
          unfold Sock.writeImpl at h
          split at h
          · simp at h
          · split at h <;> simp at h
        · rw [Sock.write_out h]; exact List.prefix_append _ _
      write_ok_sent := fun h => Sock.write_out h
      write_err_sent := fun {s s' buf e} h => by
        rw [Sock.write_def] at h
        unfold Sock.writeImpl at h
        split at h
        · simp at h
        · split at h <;> simp at h }
    (fun _ => rfl) (fun _ => List.prefix_refl _) (fun {s s'} h => rfl)

theorem Sock.sent_eq (s : Sock) : sent s = s.out := rfl
theorem Sock.wire_eq (s : Sock) : wire s = s.out := rfl

/-- The end of a connection on which the peer's bytes are `input`, with these answers. -/
def Sock.start (input : Bytes) (closes : Bool) (fed : List Nat) (ended : Bool) (room : List Nat) : Sock :=
  ⟨input, closes, fed, ended, [], room, none⟩

/-- How far two connected programs have come: the answers that each has got, and how many bytes are on the way. -/
structure Link where
  clientRoom : List Nat
  clientFed : List Nat
  clientEnded : Bool
  serverFed : List Nat
  serverRoom : List Nat
  up : Nat
  down : Nat
deriving DecidableEq, Repr

/-- Nothing has happened. -/
def Link.init : Link := ⟨[], [], false, [], [], 0, 0⟩

section
variable (client server : Sock → Sock) (req resp : Bytes)

/-- The client's end of the connection: it is sent `resp`, and then the server closes. -/
def Link.clientEnd (x : Link) : Sock := client (.start resp true x.clientFed x.clientEnded x.clientRoom)

/-- The server's end: it is sent `req`; the client does not close before it has finished. -/
def Link.serverEnd (x : Link) : Sock := server (.start req false x.serverFed false x.serverRoom)

/-- One step of the client, the server or the operating system. A pipe holds at most `ku` (`kd`) bytes. A write takes at
least one byte, and as many as there is room for or fewer; a read gives at least one byte, and as many as there are or
fewer. A program that has finished closes its end: what it has not read is dropped, and its peer reads the end of the
stream once it has read everything. -/
inductive Link.Step (ku kd : Nat) : Link → Link → Prop
  | clientWrite {x : Link} {buf : Bytes} (k : Nat) : (x.clientEnd client resp).waits = some (.write buf) → 0 < k →
      k ≤ buf.length → x.up + k ≤ ku → Step ku kd x { x with clientRoom := x.clientRoom ++ [k], up := x.up + k }
  | clientRead {x : Link} {n : Nat} (k : Nat) : (x.clientEnd client resp).waits = some (.read n) → 0 < k →
      k ≤ n → k ≤ x.down → Step ku kd x { x with clientFed := x.clientFed ++ [k], down := x.down - k }
  | clientClosed {x : Link} {n : Nat} : (x.clientEnd client resp).waits = some (.read n) → x.down = 0 →
      (x.serverEnd server req).waits = none → x.clientEnded = false → Step ku kd x { x with clientEnded := true }
  | serverRead {x : Link} {n : Nat} (k : Nat) : (x.serverEnd server req).waits = some (.read n) → 0 < k →
      k ≤ n → k ≤ x.up → Step ku kd x { x with serverFed := x.serverFed ++ [k], up := x.up - k }
  | serverWrite {x : Link} {buf : Bytes} (k : Nat) : (x.serverEnd server req).waits = some (.write buf) → 0 < k →
      k ≤ buf.length → x.down + k ≤ kd → Step ku kd x { x with serverRoom := x.serverRoom ++ [k], down := x.down + k }
  | dropUp {x : Link} : (x.serverEnd server req).waits = none → 0 < x.up → Step ku kd x { x with up := 0 }
  | dropDown {x : Link} : (x.clientEnd client resp).waits = none → 0 < x.down → Step ku kd x { x with down := 0 }

/-- Several steps, counted. -/
inductive Link.Run (ku kd : Nat) : Nat → Link → Link → Prop
  | refl (x : Link) : Run ku kd 0 x x
  | step {n : Nat} {x y z : Link} : Run ku kd n x y → Link.Step client server req resp ku kd y z → Run ku kd (n + 1) x z

end

end HttpIo
