import Verif.Lemmas.Peer

/-! A scripted peer, as a witness for the theorems about conversations. Not in the repository. -/

namespace HttpIo
open Spec

/-- A connection whose peer's reply is a function of what it received. `idle` is what a read meets when the reply is
over: an error, after which the connection is dead, or the end of the stream. `seg` bounds the length of a segment. -/
structure Talker where
  reply : Bytes → Bytes
  mono : ∀ w x, reply w <+: reply (w ++ x)
  idle : Option Err
  seg : Nat
  sink : Sink
  got : Bytes
  got_le : got <+: reply (wire sink)
  dead : Bool
  dead_got : dead = true → got = reply (wire sink)

/-- What is still to be read. -/
def Talker.rest (s : Talker) : Bytes := (s.reply (wire s.sink)).drop s.got.length

theorem Talker.dead_rest (s : Talker) (h : s.dead = true) : s.rest = [] := by
  unfold Talker.rest
  rw [← s.dead_got h]; simp

theorem Talker.got_rest (s : Talker) : s.got ++ s.rest = s.reply (wire s.sink) := by
  obtain ⟨t, ht⟩ := s.got_le
  unfold Talker.rest
  rw [← ht]; simp

/-- Read one segment. -/
def Talker.readImpl (s : Talker) (n : Nat) : Except Err Bytes × Talker :=
  match h : s.rest with
  | [] =>
    match s.idle, s.dead with
    | some e, false => (.error e, { s with
        dead := true,
        dead_got := fun _ => by have := s.got_rest; rw [h, List.append_nil] at this; exact this })
    | _, _ => (.ok [], s)
  | _ :: _ => (.ok (s.rest.take (min n (s.seg + 1))), { s with
      got := s.got ++ s.rest.take (min n (s.seg + 1)),
      got_le := by
        rw [← s.got_rest]
        exact (List.prefix_append_right_inj _).2 (List.take_prefix _ _),
      dead_got := fun hd => by rw [s.dead_rest hd] at h; simp at h })

instance : Reader Talker := { read := Talker.readImpl }

/-- What a read meets after the reply. -/
def Talker.tail (s : Talker) : List Ev :=
  match s.idle, s.dead with
  | some e, false => [.fault e]
  | _, _ => []

/-- What was met after the reply. -/
def Talker.past (s : Talker) : List Ev :=
  match s.idle, s.dead with
  | some e, true => [.fault e]
  | _, _ => []

theorem Talker.read_cases (s : Talker) (n : Nat) :
    (s.rest = [] ∧ ∃ e, s.idle = some e ∧ s.dead = false ∧ (read s n).1 = .error e ∧
      (read s n).2.rest = s.rest ∧ (read s n).2.sink = s.sink ∧ (read s n).2.reply = s.reply ∧ (read s n).2.idle = s.idle ∧
      (read s n).2.dead = true) ∨
    (s.rest = [] ∧ s.tail = [] ∧ read s n = (.ok [], s)) ∨
    ∃ p q, s.rest = p ++ q ∧ (0 < n → p ≠ []) ∧ p.length ≤ n ∧ (read s n).1 = .ok p ∧ (read s n).2.rest = q ∧
      (read s n).2.got = s.got ++ p ∧ (read s n).2.sink = s.sink ∧ (read s n).2.reply = s.reply ∧ (read s n).2.idle = s.idle ∧
      (read s n).2.dead = s.dead := by
  show (_ ∧ ∃ e, _ ∧ _ ∧ (s.readImpl n).1 = _ ∧ (s.readImpl n).2.rest = _ ∧ (s.readImpl n).2.sink = _ ∧ (s.readImpl n).2.reply = _ ∧
      (s.readImpl n).2.idle = _ ∧ (s.readImpl n).2.dead = _) ∨ (_ ∧ _ ∧ s.readImpl n = _) ∨
    ∃ p q, _ ∧ _ ∧ _ ∧ (s.readImpl n).1 = _ ∧ (s.readImpl n).2.rest = _ ∧ (s.readImpl n).2.got = _ ∧
      (s.readImpl n).2.sink = _ ∧ (s.readImpl n).2.reply = _ ∧ (s.readImpl n).2.idle = _ ∧ (s.readImpl n).2.dead = _
  unfold Talker.readImpl
  split
  · rename_i h
    split
    · rename_i e h1 h2
      exact .inl ⟨h, e, h1, h2, rfl, rfl, rfl, rfl, rfl, rfl⟩
    · rename_i h1
      refine .inr (.inl ⟨h, ?_, rfl⟩)
      unfold Talker.tail
      split
      · rename_i e h2 h3; exact absurd h3 (h1 e h2)
      · rfl
  · rename_i b bs h
    refine .inr (.inr ⟨s.rest.take (min n (s.seg + 1)), s.rest.drop (min n (s.seg + 1)), (List.take_append_drop _ _).symm,
      ?_, ?_, rfl, ?_, rfl, rfl, rfl, rfl, rfl⟩)
    · intro hn h1
      rw [h] at h1
      have := congrArg List.length h1
      simp at this; omega
    · simp; omega
    · have := s.got_rest
      show List.drop (s.got ++ _).length (s.reply (wire s.sink)) = _
      rw [← this, List.length_append, List.drop_append]
      simp only [Nat.add_sub_cancel_left]
      rw [List.drop_eq_nil_of_le (by omega), List.nil_append, List.length_take]
      rw [List.drop_eq_drop_iff]
      omega

instance : LawfulReader Talker where
  trace s := s.rest.map .byte ++ s.tail
  read_step s n hn := by
    rcases s.read_cases n with ⟨h1, e, h2, h3, h4, h5, h6, h7, h8, h9⟩ | ⟨h1, h2, h3⟩ | ⟨p, q, h1, h2, h3, h4, h5, h6, h7, h8, h9, h10⟩
    · rw [h4, h5, h1]
      unfold Talker.tail
      rw [h2, h3, h8, h9, h2]
      exact .fault e [] n
    · rw [h3]
      dsimp only
      rw [h1, h2]
      exact .eof n
    · rw [h4, h5, h1]
      have : (read s n).2.tail = s.tail := by unfold Talker.tail; rw [h9, h10]
      rw [this, List.map_append, List.append_assoc]
      exact .data p _ n (h2 hn) h3

theorem Talker.trace_eq (s : Talker) : trace s = s.rest.map .byte ++ s.tail := rfl

instance : ZeroReader Talker where
  read_zero s := by
    rw [Talker.trace_eq, Talker.trace_eq]
    rcases s.read_cases 0 with ⟨h1, e, h2, h3, h4, h5, h6, h7, h8, h9⟩ | ⟨h1, h2, h3⟩ | ⟨p, q, h1, h2, h3, h4, h5, h6, h7, h8, h9, h10⟩
    · right
      refine ⟨e, [], ?_, h4, ?_⟩
      · rw [h1]; unfold Talker.tail; rw [h2, h3]; rfl
      · rw [h5, h1]; unfold Talker.tail; rw [h8, h9, h2]; rfl
    · left; rw [h3]; exact ⟨rfl, rfl⟩
    · left
      have hp : p = [] := List.length_eq_zero_iff.1 (by omega)
      subst hp
      refine ⟨h4, ?_⟩
      have : (read s 0).2.tail = s.tail := by unfold Talker.tail; rw [h9, h10]
      rw [h5, h1, this]; simp

/-- Writing: the sending half, unless the connection is dead. -/
def Talker.writeImpl (s : Talker) (buf : Bytes) : Except Err Nat × Talker :=
  if hdead : s.dead = true then (.error (.io (.other 0)), s)
  else ((write s.sink buf).1, { s with
    sink := (write s.sink buf).2,
    got_le := by
      obtain ⟨x, hx⟩ := LawfulWriter.write_wire s.sink buf
      rw [show wire (write s.sink buf).2 = _ from hx.symm]
      exact s.got_le.trans (s.mono _ _),
    dead_got := fun hd => absurd hd hdead })

/-- Flushing: likewise. -/
def Talker.flushImpl (s : Talker) : Except Err Unit × Talker :=
  if hdead : s.dead = true then (.error (.io (.other 0)), s)
  else ((flush s.sink).1, { s with
    sink := (flush s.sink).2,
    got_le := by
      obtain ⟨x, hx⟩ := LawfulWriter.flush_wire s.sink
      rw [show wire (flush s.sink).2 = _ from hx.symm]
      exact s.got_le.trans (s.mono _ _),
    dead_got := fun hd => absurd hd hdead })

instance : FiniteWriter Talker where
  write := Talker.writeImpl
  flush := Talker.flushImpl
  patience s := if s.dead then 0 else patience s.sink
  write_ok {s s'} buf k h := by
    unfold Talker.writeImpl at h
    split at h
    · simp at h
    · rename_i hd
      simp only [Prod.mk.injEq] at h
      rw [← h.2]; dsimp only
      rw [if_neg hd, if_neg hd]
      exact FiniteWriter.write_ok (s := s.sink) (s' := (write s.sink buf).2) (Prod.ext h.1 rfl)
  write_err {s s'} buf e h := by
    unfold Talker.writeImpl at h
    split at h
    · rename_i hd
      simp only [Prod.mk.injEq, Except.error.injEq] at h
      rw [← h.1, ← h.2]
      exact ⟨Nat.le_refl _, fun h => by simp [Err.isInterrupted] at h⟩
    · rename_i hd
      simp only [Prod.mk.injEq] at h
      rw [← h.2]; dsimp only
      rw [if_neg hd, if_neg hd]
      exact FiniteWriter.write_err (s := s.sink) (s' := (write s.sink buf).2) (Prod.ext h.1 rfl)
  flush_le s := by
    unfold Talker.flushImpl
    split
    · exact Nat.le_refl _
    · rename_i hd
      dsimp only
      exact FiniteWriter.flush_le s.sink

theorem Talker.write_def (s : Talker) (buf : Bytes) : write s buf = s.writeImpl buf := rfl
theorem Talker.flush_def (s : Talker) : flush s = s.flushImpl := rfl

instance : LawfulWriter Talker :=
  LawfulWriter.ofContract Talker (fun s => sent s.sink) (fun s => wire s.sink) (fun s => LawfulWriter.wire_sent s.sink)
    { write_wire := fun s buf => by
        rw [Talker.write_def]
        unfold Talker.writeImpl
        split
        · exact List.prefix_refl _
        · exact LawfulWriter.write_wire s.sink buf
      write_ok_sent := fun {s s' buf k} h => by
        rw [Talker.write_def] at h
        unfold Talker.writeImpl at h
        split at h
        · simp at h
        · simp only [Prod.mk.injEq] at h
          rw [← h.2]
          exact LawfulWriter.write_ok_sent (s := s.sink) (s' := (write s.sink buf).2) (Prod.ext h.1 rfl)
      write_err_sent := fun {s s' buf e} h => by
        rw [Talker.write_def] at h
        unfold Talker.writeImpl at h
        split at h
        · simp only [Prod.mk.injEq] at h; rw [← h.2]
        · simp only [Prod.mk.injEq] at h
          rw [← h.2]
          exact LawfulWriter.write_err_sent (s := s.sink) (s' := (write s.sink buf).2) (Prod.ext h.1 rfl) }
    (fun s => by
      rw [Talker.flush_def]
      unfold Talker.flushImpl
      split
      · rfl
      · exact LawfulWriter.flush_sent s.sink)
    (fun s => by
      rw [Talker.flush_def]
      unfold Talker.flushImpl
      split
      · exact List.prefix_refl _
      · exact LawfulWriter.flush_wire s.sink)
    (fun {s s'} h => by
      rw [Talker.flush_def] at h
      unfold Talker.flushImpl at h
      split at h
      · simp at h
      · simp only [Prod.mk.injEq] at h
        rw [← h.2]
        exact LawfulWriter.flush_ok_wire (s := s.sink) (s' := (flush s.sink).2) (Prod.ext h.1 rfl))

theorem Talker.wire_eq (s : Talker) : wire s = wire s.sink := rfl
theorem Talker.sent_eq (s : Talker) : sent s = sent s.sink := rfl

/-- Everything the peer will send. -/
def Talker.said (s : Talker) (w : Bytes) : List Ev :=
  (s.reply w).map .byte ++ match s.idle with | some e => [.fault e] | none => []

/-- Everything read so far. -/
def Talker.heard (s : Talker) : List Ev := s.got.map .byte ++ s.past

theorem Talker.write_kept (s s' : Talker) (h : s'.said = s.said ∧ s'.heard = s.heard) (buf : Bytes) :
    (write s' buf).2.said = s.said ∧ (write s' buf).2.heard = s.heard := by
  rw [Talker.write_def]
  unfold Talker.writeImpl
  split <;> exact h

theorem Talker.writeAll_kept (c : Cfg) (s : Talker) (buf : Bytes) :
    (writeAll c s buf).2.said = s.said ∧ (writeAll c s buf).2.heard = s.heard :=
  defaultWriteAll_kept (τ := Talker) (Q := fun s' => s'.said = s.said ∧ s'.heard = s.heard)
    (fun s' buf h => Talker.write_kept s s' h buf) ⟨rfl, rfl⟩

theorem Talker.flush_kept (s : Talker) : (flush s).2.said = s.said ∧ (flush s).2.heard = s.heard := by
  rw [Talker.flush_def]
  unfold Talker.flushImpl
  split <;> exact ⟨rfl, rfl⟩

instance : PeerSocket Talker where
  peer := Talker.said
  taken := Talker.heard
  heard s := by
    rw [Talker.trace_eq, Talker.wire_eq]
    unfold Talker.said Talker.heard Talker.past Talker.tail
    rw [← s.got_rest, List.map_append]
    cases hi : s.idle with
    | none => simp
    | some e =>
      cases hd : s.dead with
      | false => simp
      | true => simp [s.dead_rest hd]
  read_wire s n := by
    rw [Talker.wire_eq, Talker.wire_eq]
    rcases s.read_cases n with ⟨_, e, _, _, _, _, h, _⟩ | ⟨_, _, h⟩ | ⟨p, q, _, _, _, _, _, _, h, _⟩ <;> rw [h]
  read_sent s n := by
    rw [Talker.sent_eq, Talker.sent_eq]
    rcases s.read_cases n with ⟨_, e, _, _, _, _, h, _⟩ | ⟨_, _, h⟩ | ⟨p, q, _, _, _, _, _, _, h, _⟩ <;> rw [h]
  read_peer s n := by
    funext w
    unfold Talker.said
    rcases s.read_cases n with ⟨_, e, _, _, _, _, _, h, h', _⟩ | ⟨_, _, h⟩ | ⟨p, q, _, _, _, _, _, _, _, h, h', _⟩
    · rw [h, h']
    · rw [h]
    · rw [h, h']
  write_peer s buf := (Talker.write_kept s s ⟨rfl, rfl⟩ buf).1
  flush_peer s := s.flush_kept.1
  writeAll_peer c s buf := (Talker.writeAll_kept c s buf).1
  write_taken s buf := (Talker.write_kept s s ⟨rfl, rfl⟩ buf).2
  flush_taken s := s.flush_kept.2
  writeAll_taken c s buf := (Talker.writeAll_kept c s buf).2

/-- It does not fail while it is alive, if its sending half does not. -/
theorem talker_reliable (c : Cfg) (i : Option Err) : Reliable c fun s : Talker => s.idle = i ∧ s.dead = false ∧
    ∀ a ∈ s.sink.plan, (∃ n, a = .accept (n + 1)) ∨ ∃ e, a = .fault e ∧ Retried c e := by
  have hr := sink_reliable c
  have hn : ∀ (s : Talker) buf, (s.idle = i ∧ s.dead = false ∧
      ∀ a ∈ s.sink.plan, (∃ n, a = .accept (n + 1)) ∨ ∃ e, a = .fault e ∧ Retried c e) →
      ((write s buf).2.idle = i ∧ (write s buf).2.dead = false ∧
      ∀ a ∈ (write s buf).2.sink.plan, (∃ n, a = .accept (n + 1)) ∨ ∃ e, a = .fault e ∧ Retried c e) := by
    intro s buf hs
    rw [Talker.write_def]
    unfold Talker.writeImpl
    rw [dif_neg (by rw [hs.2.1]; simp)]
    exact ⟨hs.1, hs.2.1, hr.write_next _ _ hs.2.2⟩
  have hw : ∀ (s : Talker) buf, (s.idle = i ∧ s.dead = false ∧
      ∀ a ∈ s.sink.plan, (∃ n, a = .accept (n + 1)) ∨ ∃ e, a = .fault e ∧ Retried c e) → buf ≠ [] →
      (∃ k, (write s buf).1 = .ok (k + 1)) ∨ ∃ e, (write s buf).1 = .error e ∧ Retried c e := by
    intro s buf hs
    rw [Talker.write_def]
    unfold Talker.writeImpl
    rw [dif_neg (by rw [hs.2.1]; simp)]
    exact hr.write_ok _ _ hs.2.2
  refine ⟨hn, ?_, fun s buf hs => defaultWriteAll_kept (τ := Talker) hn hs, hw, ?_,
    fun s buf hs => Reliable.loop (τ := Talker) hn hw hs⟩
  · intro s hs
    rw [Talker.flush_def]
    unfold Talker.flushImpl
    rw [dif_neg (by rw [hs.2.1]; simp)]
    exact ⟨hs.1, hs.2.1, hr.flush_next _ hs.2.2⟩
  · intro s hs
    rw [Talker.flush_def]
    unfold Talker.flushImpl
    rw [dif_neg (by rw [hs.2.1]; simp)]
    exact hr.flush_ok _ hs.2.2

end HttpIo
