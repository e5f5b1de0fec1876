import Verif.Props.SendFails
import Verif.Props.Cut

/-! C98: what `serve_one` says when something fails. -/

namespace HttpIo
open Spec

theorem copy_failsWith {ρ σ : Type} [LawfulReader ρ] [Writer σ] {c : Cfg} {P : σ → Prop} {F : Err → Prop} (hf : FailsWith c P F)
    (r : ρ) (w : σ) (n : Nat) (hw : P w) (e : Err) (he : (copy c r w n).1 = .error e) :
    .fault e ∈ trace r ∨ F e ∨ e = tookNothing c := by
  fun_induction copy c r w n with
  | case1 r w n r1 hr => simp at he
  | case2 r w n b bs r1 hr w1 hwr ih =>
    have hw1 : P w1 := by have := hf.writeAll_next c w (b :: bs) hw; rwa [hwr] at this
    rcases ih hw1 he with h | h
    · left
      rw [trace_of_data (copySize_pos _ _) (by simp) hr]
      exact List.mem_append.2 (.inr h)
    · exact .inr h
  | case3 r w n b bs r1 hr e1 w1 hwr =>
    simp only [Except.error.injEq] at he
    subst he
    exact .inr (hf.writeAll_err w (b :: bs) _ hw (by rw [hwr]))
  | case4 r w n e1 r1 hr hre ih =>
    have := LawfulReader.read_step r _ (copySize_pos c r)
    rw [hr] at this
    rcases ih hw he with h | h
    · left; rw [this.error_inv]; exact List.mem_cons_of_mem _ h
    · exact .inr h
  | case5 r w n e1 r1 hr hre =>
    have := LawfulReader.read_step r _ (copySize_pos c r)
    rw [hr] at this
    simp only [Except.error.injEq] at he
    subst he
    left; rw [this.error_inv]; simp

section
variable {c : Cfg} {η σ ρ ε : Type} [CaseMap] [LawfulReader σ] [ZeroReader σ] [LawfulReader ρ] [ZeroReader ρ] [LawfulWriter σ]
  {P : σ → Prop} {F : Err → Prop}

omit [ZeroReader σ] [LawfulWriter σ] in
/-- If no connection comes, `serve_one` fails, and the handler is not asked. With std the kind of the error is lost. -/
theorem C98_accept [Writer σ] (h : Handler c η σ ρ ε) (errText : Err → Bytes) (e : Err) (self : η) :
    h.serveOne errText (.err e) self = (.err (if c.std then .io (.other 0) else e), none, self) := rfl

/-- If a connection was accepted, every error of `serve_one` is one that the transport gave when the response was written,
or one that the response's body gave, as it was, or says that the transport takes nothing; or it is of kind Other, with
std, for a head that could not be written. -/
theorem C98_serve_partial (hf : FailsWith c P F) (hkept : ∀ s n, P s → P (read s n).2) (h : Handler c η σ ρ ε) (ho : OnlyReads h)
    (errText : Err → Bytes) (s : σ) (self : η) (hs : P s) (e : Err) (he : (h.serveOne errText (.ok s) self).1 = .err e) :
    ∃ r : ServerResponse c ρ,
      ((h.serveOneInner errText s self).1 = .ok r ∨ (h.serveOneInner errText s self).1 = .err r) ∧
      (.fault e ∈ trace r.body ∨ F e ∨ e = tookNothing c ∨ (c.std = true ∧ e = .io (.other 0) ∧
        ∃ e', (F e' ∨ e' = tookNothing c) ∧ (r.serialize (h.serveOneInner errText s self).2.1).1 = .error e')) := by
  have hP := inner_kept ⟨hkept⟩ h ho errText self hs
  have hresp : ∃ r : ServerResponse c ρ,
      (h.serveOneInner errText s self).1 = .ok r ∨ (h.serveOneInner errText s self).1 = .err r := by
    cases hi : (h.serveOneInner errText s self).1 with
    | ok r => exact ⟨r, .inl rfl⟩
    | err r => exact ⟨r, .inr rfl⟩
    | panic =>
      unfold Handler.serveOne at he
      dsimp only at he
      rcases hx : h.serveOneInner errText s self with ⟨x, s1, self1⟩
      rw [hx] at hi he
      dsimp only at hi
      subst hi
      simp at he
  obtain ⟨r, hr⟩ := hresp
  refine ⟨r, hr, ?_⟩
  rw [(serveOne_respond h errText s self r hr).1] at he
  generalize (h.serveOneInner errText s self).2.1 = s1 at he hP
  unfold respond at he
  rcases hw : r.serialize s1 with ⟨e1 | _, s2⟩
  · rw [hw] at he
    simp only [Res.err.injEq] at he
    have h1 := C93_response hf r s1 hP e1 (by rw [hw])
    unfold Cfg.toIo at he
    cases hc : c.std with
    | false =>
      rw [hc] at he
      simp only [Bool.false_eq_true, if_false] at he
      subst he
      rcases h1 with h1 | h1
      · exact .inr (.inl h1)
      · exact .inr (.inr (.inl h1))
    | true =>
      rw [hc] at he
      simp only [if_true] at he
      exact .inr (.inr (.inr ⟨rfl, he.symm, e1, h1, rfl⟩))
  · rw [hw] at he
    dsimp only at he
    have hP2 : P s2 := by
      have := hf.kept.writePieces (c := c) (s := s1) (ps := r.headPieces) hP
      have hw' : writePieces c s1 r.headPieces = (.ok (), s2) := hw
      rwa [hw'] at this
    rcases hcp : copy c r.body s2 0 with ⟨e2 | k, b, s3⟩ <;> rw [hcp] at he <;>
      simp only [Res.err.injEq, reduceCtorEq] at he
    subst he
    rcases copy_failsWith hf r.body s2 0 hP2 e2 (by rw [hcp]) with h | h | h
    · exact .inl h
    · exact .inr (.inl h)
    · exact .inr (.inr (.inl h))

/-- With std, when the head of the response cannot be written the kind of the error is lost, always. -/
theorem C98_kind_lost (hstd : c.std = true) (h : Handler c η σ ρ ε) (errText : Err → Bytes) (s : σ) (self : η) (e : Err)
    (r : ServerResponse c ρ)
    (hr : (h.serveOneInner errText s self).1 = .ok r ∨ (h.serveOneInner errText s self).1 = .err r)
    (he : (r.serialize (h.serveOneInner errText s self).2.1).1 = .error e) :
    (h.serveOne errText (.ok s) self).1 = .err (.io (.other 0)) := by
  rw [(serveOne_respond h errText s self r hr).1]
  generalize (h.serveOneInner errText s self).2.1 = s1 at he
  unfold respond
  rcases hw : r.serialize s1 with ⟨e1 | _, s2⟩ <;> rw [hw] at he
  · simp [Cfg.toIo, hstd]
  · simp at he

end

/-- A connection with a request on it whose writes do what `plan` says. -/
def plannedConn (req : Bytes) (plan : List WPlan) : Duplex Wire Sink := ⟨⟨[.data req]⟩, ⟨[], 0, plan⟩⟩

/-- As stated the property is false: with std, a client that is gone before the head of the response is written makes
`serve_one` fail with another error than the transport gave. -/
theorem C98_false : ¬ ∀ (_ : CaseMap) (c : Cfg) (h : Handler c Unit (Duplex Wire Sink) Wire Err), OnlyReads h →
    ∀ (errText : Err → Bytes) (s : Duplex Wire Sink) (e : Err), (h.serveOne errText (.ok s) ()).1 = .err e →
      .fault e ∈ s.wr.plan ∨ e = tookNothing c ∨ ∃ r : ServerResponse c Wire,
        ((h.serveOneInner errText s ()).1 = .ok r ∨ (h.serveOneInner errText s ()).1 = .err r) ∧ .fault e ∈ trace r.body := by
  intro h
  let _ := asciiCase
  have ho : OnlyReads (cutHandler ⟨true⟩) := ⟨fun _ _ _ => ⟨[], rfl⟩, fun _ _ _ => ⟨[], rfl⟩⟩
  rcases h asciiCase ⟨true⟩ (cutHandler ⟨true⟩) ho (fun _ => []) (plannedConn b!"GET / HTTP/1.1\r\n\r\n" [.fault (.io (.other 32))])
    (.io (.other 0)) (by decide +kernel) with h | h | ⟨r, h1, h2⟩
  · simp [plannedConn] at h
  · simp [tookNothing] at h
  · have key : (match ((cutHandler ⟨true⟩).serveOneInner (fun _ => [])
        (plannedConn b!"GET / HTTP/1.1\r\n\r\n" [.fault (.io (.other 32))]) ()).1 with
      | .ok r => decide (.fault (.io (.other 0)) ∉ trace r.body)
      | .err r => decide (.fault (.io (.other 0)) ∉ trace r.body)
      | .panic => false) = true := by decide +kernel
    rcases h1 with h1 | h1 <;> rw [h1] at key <;> simp only [decide_eq_true_eq] at key <;> exact key h2

/-- Witness: the transport fails while the head is written; while the body is; the body fails; nothing fails. -/
example : let _ := asciiCase
    let run := fun (std : Bool) (plan : List WPlan) =>
      ((cutHandler ⟨std⟩).serveOne (fun _ => []) (.ok (plannedConn b!"GET / HTTP/1.1\r\n\r\n" plan)) ()).1
    run true [.fault (.io (.other 32))] = .err (.io (.other 0)) ∧ run false [.fault (.io (.other 32))] = .err (.io (.other 32)) ∧
    (∃ n, run true (List.replicate n (.accept 100) ++ [.fault (.io (.other 32))]) = .err (.io (.other 32))) ∧
    run true [] = .err isDir ∧ run false [] = .err isDir ∧ isDir ≠ .io (.other 32) ∧
    FailsWith ⟨true⟩ (fun d : Duplex Wire Sink => ∀ e, .fault e ∈ d.wr.plan → e = .io (.other 32)) (· = .io (.other 32)) := by
  intro _ run
  refine ⟨by decide +kernel, by decide +kernel, ⟨8, by decide +kernel⟩, by decide +kernel, by decide +kernel, by decide,
    (sink_fails ⟨true⟩ _).duplex⟩

end HttpIo
