import Verif.Spec.Console
import Verif.Props.Server

/-! C144, C145: what the server prints. -/

namespace HttpIo
open Spec

section
variable [CaseMap] {c : Cfg} {η σ ρ ε ο : Type} [LawfulReader σ] [LawfulReader ρ] [ZeroReader ρ] [Writer σ]

theorem complaint_eq (debug : Err → Bytes) (e : Err) : complaint debug e = b!"Error " ++ debug e ++ b!"\n" := by
  unfold complaint
  rw [show utf8 "Error " = b!"Error " by decide +kernel, show utf8 "\n" = b!"\n" by decide +kernel]

section
variable [LawfulWriter ο]

/-- On an output that takes what it is given, the server goes on as it would without it, and prints a line about each connection
that failed, in their order, and nothing else. -/
theorem C144_printed {P : ο → Prop} (hr : Reliable c P) (h : Handler c η σ ρ ε) (errText debug : Err → Bytes)
    (accepted : List (Res σ)) (self : η) (out : ο) (ho : P out) :
    ∃ out', h.serveForeverOn errText debug accepted self out =
        ((h.serveForever errText accepted self).1, (h.serveForever errText accepted self).2, out') ∧
      sent out' = sent out ++ complaints debug (h.serveForever errText accepted self).1 := by
  induction accepted generalizing self out with
  | nil => exact ⟨out, rfl, by simp [Handler.serveForever, complaints]⟩
  | cons a rest ih =>
    unfold Handler.serveForeverOn Handler.serveForever
    rcases h.serveOne errText a self with ⟨_ | e | _, s, self1⟩ <;> dsimp only
    · obtain ⟨out', h1, h2⟩ := ih self1 out ho
      rw [h1]
      exact ⟨out', rfl, h2⟩
    · rcases hw : writeAll c out (b!"Error " ++ debug e ++ b!"\n") with ⟨e1 | u, out1⟩
      · have := hr.writeAll_ok out (b!"Error " ++ debug e ++ b!"\n") ho
        rw [hw] at this
        simp at this
      · have hp := hr.writeAll_next out (b!"Error " ++ debug e ++ b!"\n") ho
        rw [hw] at hp
        obtain ⟨out', h1, h2⟩ := ih self1 out1 hp
        dsimp only
        rw [h1]
        refine ⟨out', rfl, ?_⟩
        rw [h2, LawfulWriter.writeAll_ok_sent hw]
        show _ = _ ++ (complaint debug e ++ _)
        rw [complaint_eq, List.append_assoc]
    · exact ⟨out, rfl, by simp [complaints]⟩

/-- On any output: what is printed is a beginning of the lines about the connections that were served and failed. -/
theorem C144_beginning (h : Handler c η σ ρ ε) (errText debug : Err → Bytes) (accepted : List (Res σ)) (self : η) (out : ο) :
    ∃ said, sent (h.serveForeverOn errText debug accepted self out).2.2 = sent out ++ said ∧
      said <+: complaints debug (h.serveForeverOn errText debug accepted self out).1 := by
  induction accepted generalizing self out with
  | nil => exact ⟨[], by simp [Handler.serveForeverOn], List.nil_prefix⟩
  | cons a rest ih =>
    unfold Handler.serveForeverOn
    rcases h.serveOne errText a self with ⟨_ | e | _, s, self1⟩ <;> dsimp only
    · exact ih self1 out
    · rcases hw : writeAll c out (b!"Error " ++ debug e ++ b!"\n") with ⟨e1 | u, out1⟩ <;> dsimp only
      · obtain ⟨p, hp, hs⟩ := LawfulWriter.writeAll_err_sent hw
        refine ⟨p, hs, ?_⟩
        show p <+: complaint debug e ++ []
        rw [complaint_eq, List.append_nil]; exact hp
      · obtain ⟨said, h1, h2⟩ := ih self1 out1
        refine ⟨complaint debug e ++ said, ?_, ?_⟩
        · rw [h1, LawfulWriter.writeAll_ok_sent hw, complaint_eq, List.append_assoc]
        · show _ <+: complaint debug e ++ _
          exact List.prefix_append_right_inj _ |>.2 h2
    · exact ⟨[], by simp, List.nil_prefix⟩

end

section
variable [Writer ο]

/-- Full statement: the server serves the same connections in the same way whatever becomes of its output. What holds: it does up
to the first connection that fails and about which the output does not take the line. Missing: what follows, see
`C145_shut_false`. -/
theorem C145_until_partial (h : Handler c η σ ρ ε) (errText debug : Err → Bytes) (accepted : List (Res σ)) (self : η) (out : ο) :
    ∃ k, (h.serveForeverOn errText debug accepted self out).1 = (h.serveForever errText accepted self).1.take k ∧
      (k < (h.serveForever errText accepted self).1.length → ∃ e d o x,
        (h.serveForeverOn errText debug accepted self out).1.getLast? = some (.err e, d) ∧
        writeAll c o (complaint debug e) = (.error x, (h.serveForeverOn errText debug accepted self out).2.2)) := by
  induction accepted generalizing self out with
  | nil => exact ⟨0, rfl, by simp [Handler.serveForever]⟩
  | cons a rest ih =>
    unfold Handler.serveForeverOn Handler.serveForever
    have more : ∀ (x : Res Unit × Option σ) (l : List (Res Unit × Option σ)) e d, l.getLast? = some (.err e, d) →
        (x :: l).getLast? = some (.err e, d) := by
      intro x l e d hl
      cases l with
      | nil => simp at hl
      | cons y l => rw [List.getLast?_cons_cons]; exact hl
    rcases h.serveOne errText a self with ⟨_ | e | _, s, self1⟩ <;> dsimp only
    · obtain ⟨k, h1, h2⟩ := ih self1 out
      refine ⟨k + 1, by rw [h1]; rfl, fun hk => ?_⟩
      obtain ⟨e, d, o, x, g1, g2⟩ := h2 (by simpa using hk)
      exact ⟨e, d, o, x, more _ _ _ _ g1, g2⟩
    · rcases hw : writeAll c out (b!"Error " ++ debug e ++ b!"\n") with ⟨e1 | u, out1⟩ <;> dsimp only
      · exact ⟨1, by simp, fun _ => ⟨e, s, out, e1, rfl, by rw [complaint_eq]; exact hw⟩⟩
      · obtain ⟨k, h1, h2⟩ := ih self1 out1
        refine ⟨k + 1, by rw [h1]; rfl, fun hk => ?_⟩
        obtain ⟨e, d, o, x, g1, g2⟩ := h2 (by simpa using hk)
        exact ⟨e, d, o, x, more _ _ _ _ g1, g2⟩
    · exact ⟨1, rfl, by simp⟩

/-- The output is shut, as when the program that reads it has ended: the first connection that fails, of whatever error, is the last
that is served, whatever waits. -/
theorem C145_shut_false {D : ο → Prop} (hD : Shut c D) (h : Handler c η σ ρ ε) (errText debug : Err → Bytes)
    (before after : List (Res σ)) (a : Res σ) (self : η) (out : ο) (ho : D out)
    (hok : ∀ r ∈ (h.serveForever errText before self).1, r.1 = .ok ())
    (hbad : ∃ e, (h.serveOne errText a (h.serveForever errText before self).2).1 = .err e) :
    (h.serveForeverOn errText debug (before ++ a :: after) self out).1 = (h.serveForever errText (before ++ [a]) self).1 ∧
      (h.serveForeverOn errText debug (before ++ a :: after) self out).1.length = before.length + 1 := by
  induction before generalizing self with
  | nil =>
    obtain ⟨e, he⟩ := hbad
    show (h.serveForeverOn errText debug (a :: after) self out).1 = (h.serveForever errText [a] self).1 ∧
      (h.serveForeverOn errText debug (a :: after) self out).1.length = 1
    replace he : (h.serveOne errText a self).1 = .err e := he
    unfold Handler.serveForeverOn Handler.serveForever Handler.serveForever
    rcases hs : h.serveOne errText a self with ⟨r, s, self1⟩
    rw [hs] at he
    simp only at he
    subst he
    dsimp only
    obtain ⟨x, hx⟩ := hD.refuses out (b!"Error " ++ debug e ++ b!"\n") ho (by simp)
    rcases hw : writeAll c out (b!"Error " ++ debug e ++ b!"\n") with ⟨r, out1⟩
    rw [hw] at hx
    simp only at hx
    subst hx
    exact ⟨rfl, rfl⟩
  | cons b before ih =>
    have step : ∀ l, h.serveForever errText (b :: l) self =
        match h.serveOne errText b self with
        | (.panic, s, self) => ([(.panic, s)], self)
        | (.err e, s, self) => match h.serveForever errText l self with | (rs, self) => ((.err e, s) :: rs, self)
        | (.ok (), s, self) => match h.serveForever errText l self with | (rs, self) => ((.ok (), s) :: rs, self) := fun _ => rfl
    rw [step] at hok hbad
    rw [List.cons_append, List.cons_append, step]
    unfold Handler.serveForeverOn
    revert hok hbad
    rcases h.serveOne errText b self with ⟨_ | e | _, s, self1⟩ <;> dsimp only <;> intro hok hbad
    · obtain ⟨h1, h2⟩ := ih self1 (fun r hr => hok r (List.mem_cons_of_mem _ hr)) hbad
      exact ⟨by rw [h1], by rw [List.length_cons, h2]; rfl⟩
    · exact absurd (hok _ (List.mem_cons_self ..)) (by simp)
    · exact absurd (hok _ (List.mem_cons_self ..)) (by simp)

end
end

/-- A pipe that nobody reads: every write fails. -/
structure BrokenPipe where
deriving DecidableEq, Repr

instance : FiniteWriter BrokenPipe where
  write s _ := (.error (.io (.other 32)), s)
  flush s := (.ok (), s)
  patience _ := 0
  write_ok {s s'} buf k h := by simp at h
  write_err {s s'} buf e h := by
    simp only [Prod.mk.injEq, Except.error.injEq] at h
    rw [← h.1]; simp [Err.isInterrupted]
  flush_le s := Nat.le_refl _

instance : LawfulWriter BrokenPipe :=
  LawfulWriter.ofContract BrokenPipe (fun _ => []) (fun _ => []) (fun _ => List.prefix_refl _)
    { write_wire := fun s buf => List.prefix_refl _
      write_ok_sent := fun {s s' buf k} h => by
        replace h : ((.error (.io (.other 32)) : Except Err Nat), s) = (.ok k, s') := h
        simp at h
      write_err_sent := fun {s s' buf e} h => rfl }
    (fun _ => rfl) (fun _ => List.prefix_refl _) (fun {s s'} h => rfl)

theorem brokenPipe_shut (c : Cfg) : Shut c fun _ : BrokenPipe => True := by
  refine ⟨fun o buf _ hb => ?_, fun _ _ _ => trivial⟩
  cases buf with
  | nil => exact absurd rfl hb
  | cons b buf =>
    refine ⟨.io (.other 32), ?_⟩
    show (writeLoop c o (b :: buf)).1 = _
    unfold writeLoop
    simp [write, Cfg.retries, Err.isInterrupted]

/-- Witness for `C144_printed`: a client, two failed accepts, and another client; the output takes a byte, is interrupted, and then
takes everything. -/
example : let _ := asciiCase
    let conn := fun bs => (.ok (Duplex.mk (Wire.mk [.data bs]) (Sink.mk [] 0 [])) : Res (Duplex Wire Sink))
    let debug : Err → Bytes := fun e => if e = .ssl then b!"SslError" else b!"IoError"
    let run := (sampleHandler ⟨true⟩).serveForeverOn (ο := Sink) (fun _ => b!"oops") debug
      [conn b!"GET /missing HTTP/1.1\r\n\r\n", .err .ssl, .err (.io .interrupted), conn b!"GET / HTTP/1.1\r\n\r\n"] 0
      ⟨b!"> ", 0, [.accept 1, .fault (.io .interrupted)]⟩
    Reliable ⟨true⟩ (fun s : Sink => ∀ a ∈ s.plan, (∃ n, a = .accept (n + 1)) ∨ ∃ e, a = .fault e ∧ Retried ⟨true⟩ e) ∧
    run.1.map (fun x => x.2.map sent) = [some b!"HTTP/1.1 404 Not Found\r\n\r\nno such file", none, none, some b!"HTTP/1.1 200 OK\r\n\r\nhello"] ∧
    sent run.2.2 = b!"> Error IoError\nError IoError\n" := by
  intro inst conn debug run
  exact ⟨sink_reliable _, by decide +kernel, by decide +kernel⟩

/-- Witness for `C145_shut_false` and the end of `C145_until_partial`: nobody reads the output, the first client is served, and the
failed accept ends the server before it gets to the next client. -/
example (debug : Err → Bytes) : let _ := asciiCase
    let conn := fun bs => (.ok (Duplex.mk (Wire.mk [.data bs]) (Sink.mk [] 0 [])) : Res (Duplex Wire Sink))
    let first := conn b!"GET /missing HTTP/1.1\r\n\r\n"
    let next := conn b!"GET / HTTP/1.1\r\n\r\n"
    ((sampleHandler ⟨true⟩).serveForeverOn (fun _ => b!"oops") debug [first, .err .ssl, next] 0 BrokenPipe.mk).1.length = 2 ∧
    ((sampleHandler ⟨true⟩).serveForever (fun _ => b!"oops") [first, .err .ssl, next] 0).1.length = 3 := by
  intro inst conn first next
  refine ⟨(C145_shut_false (brokenPipe_shut _) _ _ debug [first] [next] (.err .ssl) 0 _ trivial ?_ ⟨.io (.other 0), ?_⟩).2, ?_⟩ <;>
    decide +kernel

end HttpIo
