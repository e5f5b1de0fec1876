import Verif.Spec.Tape
import Verif.Spec.Pipes
import Verif.Lemmas.Server
import Verif.Lemmas.Kept
import Verif.Lemmas.ReadKept
import Verif.Lemmas.Client

/-! C150: a connection is used in one direction after the other. -/

namespace HttpIo
open Spec

theorem tape_listens {σ : Type} [LawfulReader σ] (us : List Use) :
    ReadKept fun t : Tape σ => ∃ rs, t.uses = us ++ rs ∧ Listens rs :=
  ⟨fun t n ⟨rs, h1, h2⟩ => ⟨rs ++ [.read n], by show t.uses ++ _ = _; rw [h1, List.append_assoc], by
    intro u hu
    rcases List.mem_append.1 hu with hu | hu
    · exact h2 u hu
    · exact ⟨n, List.mem_singleton.1 hu⟩⟩⟩

theorem Spec.Speaks.snoc {us : List Use} (h : Speaks us) {u : Use} (hu : ∀ n, u ≠ .read n) : Speaks (us ++ [u]) := by
  intro v hv
  rcases List.mem_append.1 hv with hv | hv
  · exact h v hv
  · rw [List.mem_singleton.1 hv]; exact hu

theorem tape_speaks {σ : Type} [Writer σ] (us : List Use) :
    Kept fun t : Tape σ => ∃ ws, t.uses = us ++ ws ∧ Speaks ws where
  write t buf := fun ⟨ws, h1, h2⟩ => ⟨ws ++ [.write buf], by show t.uses ++ _ = _; rw [h1, List.append_assoc], h2.snoc (by simp)⟩
  flush t := fun ⟨ws, h1, h2⟩ => ⟨ws ++ [.flush], by show t.uses ++ _ = _; rw [h1, List.append_assoc], h2.snoc (by simp)⟩
  writeAll _ t buf := fun ⟨ws, h1, h2⟩ => ⟨ws ++ [.write buf], by show t.uses ++ _ = _; rw [h1, List.append_assoc], h2.snoc (by simp)⟩

theorem Kept.respond {c : Cfg} {σ ρ : Type} [Writer σ] [LawfulReader ρ] [ZeroReader ρ] {P : σ → Prop} (h : Kept P)
    (r : ServerResponse c ρ) {s : σ} (hs : P s) : P (respond c r s).2.2 := by
  unfold HttpIo.respond
  have h1 : P (r.serialize s).2 := h.writePieces hs
  rcases hw : r.serialize s with ⟨_ | _, s1⟩ <;> rw [hw] at h1
  · exact h1
  · dsimp only
    have h2 := h.copy (c := c) (r := r.body) (n := 0) h1
    rcases hc : HttpIo.copy c r.body s1 0 with ⟨_ | _, b, s2⟩ <;> rw [hc] at h2 <;> exact h2

section
variable [CaseMap] {c : Cfg} {σ η ρ ε : Type} [LawfulReader σ] [ZeroReader σ] [Writer σ] [LawfulReader ρ] [ZeroReader ρ]

/-- The server first reads and then writes: once it has begun to answer it reads no more, whatever the request, the answer, the
handler and the faults of the connection. If it panics it has written nothing. -/
theorem C150_server (h : Handler c η (Tape σ) ρ ε) (ho : OnlyReads h) (errText : Err → Bytes) (t : Tape σ) (self : η) :
    ∃ t' rs ws, (h.serveOne errText (.ok t) self).2.1 = some t' ∧ t'.uses = t.uses ++ rs ++ ws ∧ Listens rs ∧ Speaks ws ∧
      ((h.serveOne errText (.ok t) self).1 = .panic → ws = []) := by
  obtain ⟨rs, h1, h2⟩ := inner_kept (tape_listens t.uses) h ho errText (s := t) self ⟨[], by simp, by simp [Listens]⟩
  unfold Handler.serveOne
  dsimp only
  rcases hi : h.serveOneInner errText t self with ⟨r | r | _, t1, self1⟩ <;> rw [hi] at h1 <;> dsimp only at h1 ⊢
  · obtain ⟨ws, h3, h4⟩ := (tape_speaks t1.uses).respond r (s := t1) ⟨[], by simp, by simp [Speaks]⟩
    rcases hr : HttpIo.respond c r t1 with ⟨_ | _, b, t2⟩ <;> rw [hr] at h3 <;>
      exact ⟨t2, rs, ws, rfl, by rw [h3, h1], h2, h4, fun h => by cases h⟩
  · obtain ⟨ws, h3, h4⟩ := (tape_speaks t1.uses).respond r (s := t1) ⟨[], by simp, by simp [Speaks]⟩
    rcases hr : HttpIo.respond c r t1 with ⟨_ | _, b, t2⟩ <;> rw [hr] at h3 <;>
      exact ⟨t2, rs, ws, rfl, by rw [h3, h1], h2, h4, fun h => by cases h⟩
  · exact ⟨t1, rs, [], rfl, by rw [h1, List.append_nil], h2, by simp [Speaks], fun _ => rfl⟩

/-- The client first writes and then reads: once it has begun to read the response it writes no more, whatever the request, the
answer and the faults of the connection. -/
theorem C150_client (q : Ask) (t : Tape σ) :
    ∃ ws rs, (q.run c t).2.uses = t.uses ++ ws ++ rs ∧ Speaks ws ∧ Listens rs ∧
      ((q.run c t).1 = .unsent → rs = []) := by
  unfold Ask.run
  cases hb : HttpRequestBuilder.new c (HttpUrl.tryFrom q.url) (if q.put then .Put else .Get) with
  | err e => exact ⟨[], [], by simp, by simp [Speaks], by simp [Listens], fun _ => rfl⟩
  | panic => exact ⟨[], [], by simp, by simp [Speaks], by simp [Listens], fun _ => rfl⟩
  | ok b =>
    dsimp only
    have hk := tape_speaks (σ := σ) t.uses
    have k1 := hk.serialize (r := b.request) (s := t) (c := c) ⟨[], by simp, by simp [Speaks]⟩
    have hs : b.send t = b.request.serialize (BufWriter.new c t) := rfl
    rw [hs]
    rcases he : b.request.serialize (BufWriter.new c t) with ⟨e, t1⟩ | o <;> rw [he] at k1 <;> dsimp only at k1 ⊢
    · obtain ⟨ws, h1, h2⟩ := k1
      exact ⟨ws, [], by rw [h1, List.append_nil], h2, by simp [Listens], fun _ => rfl⟩
    · unfold roundTrip
      have k2 := hk.outgoing.perform (cs := q.writes) k1
      rcases hp : perform o q.writes with ⟨_ | _, o'⟩ <;> rw [hp] at k2 <;> dsimp only at k2 ⊢
      · obtain ⟨ws, h1, h2⟩ := hk.droppedRequest k2
        exact ⟨ws, [], by rw [h1, List.append_nil], h2, by simp [Listens], fun _ => rfl⟩
      · have k3 := hk.complete k2
        unfold OutgoingRequest.finish
        rcases hc : o'.complete with ⟨e, t1⟩ | t1 <;> rw [hc] at k3 <;> dsimp only at k3 ⊢
        · obtain ⟨ws, h1, h2⟩ := k3
          exact ⟨ws, [], by rw [h1, List.append_nil], h2, by simp [Listens], fun _ => rfl⟩
        · obtain ⟨ws, h1, h2⟩ := k3
          have hl := tape_listens (σ := σ) t1.uses
          have m1 := hl.response (c := c) (s := t1) ⟨[], by simp, by simp [Listens]⟩
          have fin : ∀ t2 : Tape σ, (∃ rs, t2.uses = t1.uses ++ rs ∧ Listens rs) →
              ∃ rs, t2.uses = t.uses ++ ws ++ rs ∧ Listens rs := fun t2 ⟨rs, h3, h4⟩ => ⟨rs, by rw [h3, h1], h4⟩
          rcases hd : HttpResponse.deserialize c t1 with ⟨r | e | _, t2⟩ <;> rw [hd] at m1 <;> dsimp only at m1 ⊢
          · have m3 : (r.body).All fun x : BufReader c (Tape σ) => ∃ rs, x.inner.uses = t1.uses ++ rs ∧ Listens rs := by
              obtain ⟨_, enc, len, hnew⟩ := response_under hd
              rw [hnew]; exact HttpBody.All.new m1
            have m4 := ((hl.bufReader (c := c)).body (c := c)).calls (sizes := q.sizes) m3
            cases hu : (calls r.body q.sizes).2.under with
            | none =>
              obtain ⟨rs, h3, h4⟩ := fin _ m1
              exact ⟨ws, rs, h3, h2, h4, fun h => by cases h⟩
            | some t3 =>
              obtain ⟨rs, h3, h4⟩ := fin _ (m4.under hu)
              exact ⟨ws, rs, h3, h2, h4, fun h => by cases h⟩
          · obtain ⟨rs, h3, h4⟩ := fin _ m1
            exact ⟨ws, rs, h3, h2, h4, fun h => by cases h⟩
          · obtain ⟨rs, h3, h4⟩ := fin _ m1
            exact ⟨ws, rs, h3, h2, h4, fun h => by cases h⟩

end

/-- A server that answers PUT with what it has received. -/
def tapeHandler (c : Cfg) : Handler c Nat (Tape (Duplex Wire Sink)) Wire Bytes :=
  { Handler.defaults c Nat (Tape (Duplex Wire Sink)) Wire Bytes fun e => ServerResponse.fromString c .NotFound e with
    put := fun _ body n => (.ok (ServerResponse.fromString c .Created b!"ok"), (calls body [3, 100]).2, n + 1) }

example (c : Cfg) : OnlyReads (tapeHandler c) := ⟨fun _ _ _ => ⟨[3, 100], rfl⟩, fun _ _ _ => ⟨[], rfl⟩⟩

/-- The uses of a connection that brings a PUT: reads of the head and of the body, then the pieces of the head of the answer and its
body. -/
example : let _ := asciiCase
    ((tapeHandler ⟨true⟩).serveOne (fun _ => []) (.ok ⟨⟨⟨[.data b!"PUT / HTTP/1.1\r\ncontent-length: 4\r\n\r\nda", .data b!"ta"]⟩,
      Sink.mk [] 0 []⟩, []⟩) 0).2.1.map (·.uses) =
    some ([.read 8192, .read 8192, .write b!"HTTP/", .write b!"1", .write b!".", .write b!"1", .write b!" ", .write b!"201 Created",
      .write b!"\r\n", .write b!"\r\n", .write b!"ok"]) := by
  decide +kernel

example : let _ := asciiCase
    (((⟨false, ⟨b!"http", some b!"h", none, b!"/", none, none, [], none⟩, [], [9, 9]⟩ : Ask).run ⟨true⟩
      (⟨⟨⟨[.data b!"HTTP/1.1 200 OK\r\n\r\nhi"]⟩, Sink.mk [] 0 []⟩, []⟩ : Tape (Duplex Wire Sink))).2.uses.drop 1).take 3 =
    [.flush, .read 1, .read 1] := by
  decide +kernel

end HttpIo
