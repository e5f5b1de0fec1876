import Verif.Spec.Flaky
import Verif.Props.Tls

/-! C152: a handshake over a transport whose calls are interrupted (rustls). -/

namespace HttpIo
open Spec
section
variable {α ε σ : Type}

/-- What one step over the interrupted transport does, for either order of the loops. -/
def FlakyStep (t : Tls ε σ) (step : Shake ε σ → Shake ε σ) (fstep : Shake ε (σ × List Bool) → Shake ε (σ × List Bool)) : Prop :=
  ∀ x bs, fstep (withInterruptions bs x) =
    if callsNext t x then
      if bs.head? = some true then .done (.err .ssl) else withInterruptions bs.tail (step x)
    else withInterruptions bs (step x)

theorem flaky_write (t : Tls ε σ) (next : Pc) (e : ε) (s : σ) (bs : List Bool) :
    (flaky t).writeRound next e (s, bs) =
      if t.wantsWrite e then
        if bs.head? = some true then .done (.err .ssl) else withInterruptions bs.tail (t.writeRound next e s)
      else withInterruptions bs (t.writeRound next e s) := by
  unfold Tls.writeRound
  show (if t.wantsWrite e then _ else _) = _
  cases t.wantsWrite e with
  | false => rfl
  | true =>
    simp only [if_true, flaky]
    by_cases h : bs.head? = some true
    · simp [h]
    · simp only [h, if_false]
      rcases t.writeTls e s with ⟨(_ | k) | _ | _, e', s'⟩ <;> rfl

theorem flaky_read (t : Tls ε σ) (next : Pc) (e : ε) (s : σ) (bs : List Bool) :
    (flaky t).readRound next e (s, bs) =
      if t.isHandshaking e && t.wantsRead e then
        if bs.head? = some true then .done (.err .ssl) else withInterruptions bs.tail (t.readRound next e s)
      else withInterruptions bs (t.readRound next e s) := by
  unfold Tls.readRound
  show (if t.isHandshaking e && t.wantsRead e then _ else _) = _
  cases t.isHandshaking e && t.wantsRead e with
  | false => rfl
  | true =>
    simp only [if_true, flaky]
    by_cases h : bs.head? = some true
    · simp [h]
    · simp only [h, if_false]
      rcases t.readTls e s with ⟨(_ | k) | _ | _, e', s'⟩ <;> dsimp only
      · rfl
      · rcases t.process e' with ⟨_ | _ | _, e''⟩ <;> rfl
      · rfl
      · rfl

theorem flaky_finish (t : Tls ε σ) (e : ε) (s : σ) (bs : List Bool) :
    (flaky t).finish e (s, bs) = withInterruptions bs (t.finish e s) := by
  unfold Tls.finish
  show (if t.isHandshaking e then _ else _) = _
  cases t.isHandshaking e <;> rfl

theorem flaky_client (t : Tls ε σ) : FlakyStep t t.clientStep (flaky t).clientStep := by
  intro x bs
  rcases x with ⟨_ | _ | _ | _, e, s⟩ | ⟨⟨_, _⟩ | _ | _⟩
  · rfl
  · exact flaky_write ..
  · exact flaky_read ..
  · exact flaky_finish ..
  · rfl
  · rfl
  · rfl

theorem flaky_server (t : Tls ε σ) : FlakyStep t t.serverStep (flaky t).serverStep := by
  intro x bs
  rcases x with ⟨_ | _ | _ | _, e, s⟩ | ⟨⟨_, _⟩ | _ | _⟩
  · rfl
  · exact flaky_write ..
  · exact flaky_read ..
  · exact flaky_finish ..
  · rfl
  · rfl
  · rfl

theorem steps_done {step : Shake ε σ → Shake ε σ} (h : ∀ r, step (.done r) = .done r) (n : Nat) (r : Res (ε × σ)) :
    Shake.steps step n (.done r) = .done r := by
  induction n with
  | zero => rfl
  | succ n ih => unfold Shake.steps; rw [h, ih]

/-- The run over the interrupted transport, exactly. -/
theorem flaky_steps {t : Tls ε σ} {step : Shake ε σ → Shake ε σ} {fstep : Shake ε (σ × List Bool) → Shake ε (σ × List Bool)}
    (h : FlakyStep t step fstep) (hd : ∀ r, fstep (.done r) = .done r) (n : Nat) (x : Shake ε σ) (bs : List Bool) :
    Shake.steps fstep n (withInterruptions bs x) =
      if true ∈ bs.take (callsMade t step n x) then .done (.err .ssl)
      else withInterruptions (bs.drop (callsMade t step n x)) (Shake.steps step n x) := by
  induction n generalizing x bs with
  | zero => simp [callsMade, Shake.steps]
  | succ n ih =>
    unfold Shake.steps callsMade
    rw [h]
    cases callsNext t x with
    | false => simp [ih]
    | true =>
      cases bs with
      | nil => simp [ih]
      | cons b bs =>
        cases b with
        | true => simp [Nat.add_comm 1, steps_done hd]
        | false => simp [ih, Nat.add_comm 1]

/-- Whatever the library, the transport and the interruptions: the client's handshake is the one over the transport without
interruptions, as long as none of the calls it makes is interrupted; from the first call that is, it has failed. Missing for the full
property: the call is not made again (`C152_survives_false`). -/
theorem C152_client_partial (t : Tls ε σ) (e : ε) (s : σ) (bs : List Bool) (n : Nat) :
    let k := callsMade t t.clientStep n (.at .outer e s)
    (true ∉ bs.take k →
      SslClientStream.new (flaky t) (.ok e) (s, bs) n = withInterruptions (bs.drop k) (SslClientStream.new t (.ok e) s n)) ∧
    (true ∈ bs.take k → SslClientStream.new (flaky t) (.ok e) (s, bs) n = .done (.err .ssl)) := by
  have h := flaky_steps (flaky_client t) (fun _ => rfl) n (.at .outer e s) bs
  refine ⟨fun hk => ?_, fun hk => ?_⟩
  · rw [if_neg hk] at h; exact h
  · rw [if_pos hk] at h; exact h

theorem flaky_start (a : TlsAcceptor α ε σ) (s : σ) (bs : List Bool) :
    (flakyAcceptor a).start (s, bs) = if bs.head? = some true then .done (.err .ssl) else withInterruptions bs.tail (a.start s) := by
  unfold TlsAcceptor.start
  simp only [flakyAcceptor]
  by_cases h : bs.head? = some true
  · simp [h]
  · simp only [h, if_false]
    rcases a.readTls a.new s with ⟨_ | _ | _, x, s'⟩ <;> dsimp only
    · rcases a.accept x with (_ | y) | _ | _ <;> dsimp only
      · rfl
      · rcases a.intoConnection y with _ | _ | _ <;> rfl
      · rfl
      · rfl
    · rfl
    · rfl

/-- The same for the server, whose first call is the one that reads the ClientHello. -/
theorem C152_server_partial (a : TlsAcceptor α ε σ) (t : Tls ε σ) (s : σ) (bs : List Bool) (n : Nat) :
    let k := 1 + callsMade t t.serverStep n (a.start s)
    (true ∉ bs.take k →
      SslListener.accept (flakyAcceptor a) (flaky t) (.ok (s, bs)) n =
        withInterruptions (bs.drop k) (SslListener.accept a t (.ok s) n)) ∧
    (true ∈ bs.take k → SslListener.accept (flakyAcceptor a) (flaky t) (.ok (s, bs)) n = .done (.err .ssl)) := by
  have hd : ∀ r, (flaky t).serverStep (.done r) = .done r := fun _ => rfl
  unfold SslListener.accept
  dsimp only
  rw [flaky_start]
  cases bs with
  | nil =>
    have h := flaky_steps (flaky_server t) hd n (a.start s) []
    simp at h
    simp [h]
  | cons b bs =>
    cases b with
    | true => simp [Nat.add_comm 1, steps_done hd]
    | false =>
      have h := flaky_steps (flaky_server t) hd n (a.start s) bs
      simp only [List.head?_cons, Option.some.injEq, Bool.false_eq_true, if_false, List.tail_cons, Nat.add_comm 1, List.take_succ_cons,
        List.mem_cons, Bool.true_eq_false, false_or, List.drop_succ_cons]
      refine ⟨fun hk => ?_, fun hk => ?_⟩
      · rw [if_neg hk] at h; exact h
      · rw [if_pos hk] at h; exact h

end

/-- An acceptor for the witnesses: it wants `hello` in one read. -/
def helloAcceptor : TlsAcceptor Bytes Toy ToyWire where
  new := []
  readTls x s := (.ok (s.input.headD []).length, x ++ s.input.headD [], { s with input := s.input.tail })
  accept x := .ok (if x = b!"hello" then some x else none)
  intoConnection _ := .ok ⟨3, b!"hi", b!"!"⟩

/-- The full property is false, at both ends: a handshake that completes without interruptions never does if the first call is
interrupted, however often the steps are repeated. -/
theorem C152_survives_false :
    (¬ ∀ (t : Tls Toy ToyWire) (e e1 : Toy) (s s1 : ToyWire) (bs : List Bool) (n : Nat),
      SslClientStream.new t (.ok e) s n = .done (.ok (e1, s1)) →
      ∃ m e2 s2, SslClientStream.new (flaky t) (.ok e) (s, bs) m = .done (.ok (e2, s2))) ∧
    ¬ ∀ (a : TlsAcceptor Bytes Toy ToyWire) (t : Tls Toy ToyWire) (e1 : Toy) (s s1 : ToyWire) (bs : List Bool) (n : Nat),
      SslListener.accept a t (.ok s) n = .done (.ok (e1, s1)) →
      ∃ m e2 s2, SslListener.accept (flakyAcceptor a) (flaky t) (.ok (s, bs)) m = .done (.ok (e2, s2)) := by
  constructor
  · intro h
    obtain ⟨m, e2, s2, hm⟩ := h toyTls ⟨4, b!"hey", b!""⟩ ⟨0, b!"", b!""⟩ ⟨[b!"he", b!"llo"], []⟩ ⟨[], b!"hey"⟩ [true] 20 (by decide +kernel)
    match m, hm with
    | 0, hm => exact absurd hm (by simp [SslClientStream.new, Shake.steps])
    | 1, hm => exact absurd hm (by simp [SslClientStream.new, Shake.steps, Tls.clientStep])
    | m + 2, hm =>
      rw [(C152_client_partial toyTls _ _ [true] (m + 2)).2] at hm
      · cases hm
      · show true ∈ [true].take (0 + (1 + _))
        simp [Nat.add_comm 1]
  · intro h
    obtain ⟨m, e2, s2, hm⟩ := h helloAcceptor toyTls ⟨0, [], b!"!"⟩ ⟨[b!"hello", b!"fin"], []⟩ ⟨[], b!"hi!"⟩ [true] 20 (by decide +kernel)
    rw [(C152_server_partial helloAcceptor toyTls _ [true] m).2] at hm
    · cases hm
    · simp [Nat.add_comm 1]

/-- Both cases occur: of the four calls that the client makes the fourth is interrupted, or only a fifth would be. -/
example :
    callsMade toyTls toyTls.clientStep 20 (.at .outer ⟨4, b!"hey", b!""⟩ ⟨[b!"he", b!"llo"], []⟩) = 4 ∧
    SslClientStream.new (flaky toyTls) (.ok ⟨4, b!"hey", b!""⟩) (⟨[b!"he", b!"llo"], []⟩, [false, false, false, true]) 20 = .done (.err .ssl) ∧
    SslClientStream.new (flaky toyTls) (.ok ⟨4, b!"hey", b!""⟩) (⟨[b!"he", b!"llo"], []⟩, [false, false, false, false, true]) 20 =
      .done (.ok (⟨0, [], []⟩, (⟨[], b!"hey"⟩, [true]))) := by decide +kernel

/-- The same for the server. -/
example :
    callsMade toyTls toyTls.serverStep 20 (helloAcceptor.start ⟨[b!"hello", b!"fin"], []⟩) = 3 ∧
    SslListener.accept (flakyAcceptor helloAcceptor) (flaky toyTls) (.ok (⟨[b!"hello", b!"fin"], []⟩, [false, false, false, true])) 20 =
      .done (.err .ssl) ∧
    SslListener.accept (flakyAcceptor helloAcceptor) (flaky toyTls) (.ok (⟨[b!"hello", b!"fin"], []⟩, [false, false, false, false])) 20 =
      .done (.ok (⟨0, [], b!"!"⟩, (⟨[], b!"hi!"⟩, []))) := by decide +kernel

end HttpIo
