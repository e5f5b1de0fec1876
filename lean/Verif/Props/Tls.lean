import Verif.Spec.Tls

/-! C57: a TLS stream is handed out only after the handshake. -/

namespace HttpIo
open Spec
variable {ε σ : Type}

theorem Shake.steps_done {step : Shake ε σ → Shake ε σ} (h : ∀ r, step (.done r) = .done r) (n : Nat) (r : Res (ε × σ)) :
    Shake.steps step n (.done r) = .done r := by
  induction n with
  | zero => rfl
  | succ n ih => rw [Shake.steps, h, ih]

theorem Shake.steps_inv {step : Shake ε σ → Shake ε σ} {P : Shake ε σ → Prop} (h : ∀ x, P x → P (step x)) (n : Nat)
    {x : Shake ε σ} (hx : P x) : P (Shake.steps step n x) := by
  induction n generalizing x with
  | zero => exact hx
  | succ n ih => exact ih (h x hx)

/-- What holds of a handshake all along. -/
def Tidy (t : Tls ε σ) : Shake (ε × List TlsEv) σ → Prop
  | .at pc e _ => (Rounds e.2 ∧ ∀ x ∈ e.2, x.Good) ∨ (pc = .after ∧ t.isHandshaking e.1 = true)
  | .done (.ok (e, _)) => Rounds e.2 ∧ ∀ x ∈ e.2, x.Good
  | .done _ => True

theorem tidy_write {t : Tls ε σ} {next : Pc} {e : ε × List TlsEv} {s : σ} (h : Rounds e.2 ∧ ∀ x ∈ e.2, x.Good) :
    Tidy t ((tapped t).writeRound next e s) := by
  unfold Tls.writeRound
  split
  · rcases hw : t.writeTls e.1 s with ⟨r, e', s'⟩
    simp only [tapped, hw]
    match r with
    | .ok 0 => exact trivial
    | .ok (n + 1) =>
      refine .inl ⟨.wrote h.1, fun x hx => ?_⟩
      rcases List.mem_append.1 hx with hx | hx
      · exact h.2 x hx
      · rw [List.mem_singleton.1 hx]; exact ⟨n, rfl⟩
    | .err _ => exact trivial
    | .panic => exact trivial
  · exact .inl h

theorem tidy_read {t : Tls ε σ} (hend : EndIsNoHandshake t) {next : Pc} {e : ε × List TlsEv} {s : σ}
    (h : Rounds e.2 ∧ ∀ x ∈ e.2, x.Good) : Tidy t ((tapped t).readRound next e s) := by
  unfold Tls.readRound
  split
  · rename_i hc
    have hh : t.isHandshaking e.1 = true := by
      rw [Bool.and_eq_true] at hc; exact hc.1
    rcases hr : t.readTls e.1 s with ⟨r, e', s'⟩
    simp only [tapped, hr]
    match r with
    | .ok 0 => exact .inr ⟨rfl, hend _ _ _ _ hh hr⟩
    | .ok (n + 1) =>
      dsimp only
      rcases hp : t.process e' with ⟨r', e''⟩
      match r' with
      | .ok () =>
        refine .inl ⟨?_, fun x hx => ?_⟩
        · show Rounds ((e.2 ++ [_]) ++ [_])
          rw [List.append_assoc]
          exact .got h.1
        · rcases List.mem_append.1 hx with hx | hx
          · rcases List.mem_append.1 hx with hx | hx
            · exact h.2 x hx
            · rw [List.mem_singleton.1 hx]; exact ⟨n, rfl⟩
          · rw [List.mem_singleton.1 hx]; rfl
      | .err _ => exact trivial
      | .panic => exact trivial
    | .err _ => exact trivial
    | .panic => exact trivial
  · exact .inl h

theorem tidy_finish {t : Tls ε σ} {e : ε × List TlsEv} {s : σ} (h : Tidy t (.at .after e s)) :
    Tidy t ((tapped t).finish e s) := by
  unfold Tls.finish
  split
  · exact trivial
  · rename_i hn
    rcases h with h | h
    · exact h
    · exact absurd h.2 hn

theorem tidy_client {t : Tls ε σ} (hend : EndIsNoHandshake t) (x : Shake (ε × List TlsEv) σ) (h : Tidy t x) :
    Tidy t ((tapped t).clientStep x) := by
  match x with
  | .at .outer e s =>
    rcases h with h | h
    · exact .inl h
    · simp at h
  | .at .writing e s =>
    rcases h with h | h
    · exact tidy_write h
    · simp at h
  | .at .reading e s =>
    rcases h with h | h
    · exact tidy_read hend h
    · simp at h
  | .at .after e s => exact tidy_finish h
  | .done r => exact h

theorem tidy_server {t : Tls ε σ} (hend : EndIsNoHandshake t) (x : Shake (ε × List TlsEv) σ) (h : Tidy t x) :
    Tidy t ((tapped t).serverStep x) := by
  match x with
  | .at .outer e s =>
    rcases h with h | h
    · exact .inl h
    · simp at h
  | .at .writing e s =>
    rcases h with h | h
    · exact tidy_write h
    · simp at h
  | .at .reading e s =>
    rcases h with h | h
    · exact tidy_read hend h
    · simp at h
  | .at .after e s => exact tidy_finish h
  | .done r => exact h

/-- The connection of a result is not handshaking. -/
def Over (t : Tls ε σ) : Shake ε σ → Prop
  | .done (.ok (e, _)) => t.isHandshaking e = false
  | _ => True

theorem over_write {t : Tls ε σ} {next : Pc} {e : ε} {s : σ} : Over t (t.writeRound next e s) := by
  unfold Tls.writeRound
  split
  · split <;> exact trivial
  · exact trivial

theorem over_read {t : Tls ε σ} {next : Pc} {e : ε} {s : σ} : Over t (t.readRound next e s) := by
  unfold Tls.readRound
  split
  · split
    · exact trivial
    · split <;> exact trivial
    · exact trivial
    · exact trivial
  · exact trivial

theorem over_finish {t : Tls ε σ} {e : ε} {s : σ} : Over t (t.finish e s) := by
  unfold Tls.finish
  split
  · exact trivial
  · rename_i h; simpa [Over] using h

theorem over_client {t : Tls ε σ} (x : Shake ε σ) (h : Over t x) : Over t (t.clientStep x) := by
  match x with
  | .at .outer e s => exact trivial
  | .at .writing e s => exact over_write
  | .at .reading e s => exact over_read
  | .at .after e s => exact over_finish
  | .done r => exact h

theorem over_server {t : Tls ε σ} (x : Shake ε σ) (h : Over t x) : Over t (t.serverStep x) := by
  match x with
  | .at .outer e s => exact trivial
  | .at .writing e s => exact over_write
  | .at .reading e s => exact over_read
  | .at .after e s => exact over_finish
  | .done r => exact h

/-- `SslClientStream::new` returns a stream only if its connection's handshake is over, whatever the TLS library and
the transport do. -/
theorem C57_client (t : Tls ε σ) (conn : Res ε) (s : σ) (n : Nat) (e : ε) (s' : σ)
    (h : SslClientStream.new t conn s n = .done (.ok (e, s'))) : t.isHandshaking e = false := by
  unfold SslClientStream.new at h
  match conn with
  | .ok e0 =>
    have := Shake.steps_inv over_client n (x := .at .outer e0 s) (P := Over t) trivial
    dsimp only at h
    rw [h] at this
    exact this
  | .err _ => simp at h
  | .panic => simp at h

theorem start_cases {α : Type} (a : TlsAcceptor α ε σ) (s : σ) :
    a.start s = .done (.err .ssl) ∨ a.start s = .done .panic ∨
      ∃ n x s' y e, a.readTls a.new s = (.ok n, x, s') ∧ a.accept x = .ok (some y) ∧ a.intoConnection y = .ok e ∧
        a.start s = .at .outer e s' := by
  unfold TlsAcceptor.start
  rcases h : a.readTls a.new s with ⟨r, x, s'⟩
  match r with
  | .err _ => exact .inl rfl
  | .panic => exact .inr (.inl rfl)
  | .ok n =>
    dsimp only
    cases h2 : a.accept x with
    | err _ => exact .inl rfl
    | panic => exact .inr (.inl rfl)
    | ok o =>
      cases o with
      | none => exact .inl rfl
      | some y =>
        dsimp only
        cases h3 : a.intoConnection y with
        | err _ => exact .inl rfl
        | panic => exact .inr (.inl rfl)
        | ok e => exact .inr (.inr ⟨n, x, s', y, e, rfl, h2, h3, rfl⟩)

/-- `SslListener::accept` returns a stream only if its connection's handshake is over. -/
theorem C57_server {α : Type} (a : TlsAcceptor α ε σ) (t : Tls ε σ) (accepted : Res σ) (n : Nat) (e : ε) (s' : σ)
    (h : SslListener.accept a t accepted n = .done (.ok (e, s'))) : t.isHandshaking e = false := by
  unfold SslListener.accept at h
  match accepted with
  | .ok s =>
    dsimp only at h
    have : Over t (a.start s) := by
      rcases start_cases a s with h | h | ⟨_, _, _, _, _, _, _, _, h⟩ <;> rw [h] <;> exact trivial
    have := Shake.steps_inv over_server n this
    rw [h] at this
    exact this
  | .err _ => simp at h
  | .panic => simp at h

/-- The handshake behind a stream that the client was given went well throughout: everything the library wanted to
write was written, everything read was processed without complaint before anything else was done, and the transport did
not end. -/
theorem C57_client_log (t : Tls ε σ) (hend : EndIsNoHandshake t) (e : ε) (s : σ) (n : Nat) (e' : ε) (log : List TlsEv)
    (s' : σ) (h : SslClientStream.new (tapped t) (.ok (e, [])) s n = .done (.ok ((e', log), s'))) :
    Rounds log ∧ ∀ x ∈ log, x.Good := by
  have := Shake.steps_inv (tidy_client hend) n (x := .at .outer (e, []) s) (.inl ⟨.nil, by simp⟩)
  unfold SslClientStream.new at h
  dsimp only at h
  rw [h] at this
  exact this

/-- The same for a stream from `SslListener::accept`. -/
theorem C57_server_log (t : Tls ε σ) (hend : EndIsNoHandshake t) (e : ε) (s : σ) (n : Nat) (e' : ε) (log : List TlsEv)
    (s' : σ) (h : Shake.steps (tapped t).serverStep n (.at .outer (e, []) s) = .done (.ok ((e', log), s'))) :
    Rounds log ∧ ∀ x ∈ log, x.Good := by
  have := Shake.steps_inv (tidy_server hend) n (x := .at .outer (e, []) s) (.inl ⟨.nil, by simp⟩)
  rw [h] at this
  exact this

/-- Nothing is left to write at these points of the server's handshake. -/
def Flushed (t : Tls ε σ) : Shake ε σ → Prop
  | .at .outer e _ => t.isHandshaking e = true ∨ t.wantsWrite e = false
  | .at .after e _ => t.isHandshaking e = true ∨ t.wantsWrite e = false
  | .done (.ok (e, _)) => t.wantsWrite e = false
  | _ => True

theorem flushed_server {t : Tls ε σ} (hend : EndIsNoHandshake t) (x : Shake ε σ) (h : Flushed t x) :
    Flushed t (t.serverStep x) := by
  match x with
  | .at .outer e s =>
    show Flushed t (.at (if t.isHandshaking e then .reading else .after) e s)
    split
    · exact trivial
    · exact h
  | .at .writing e s =>
    show Flushed t (t.writeRound .outer e s)
    unfold Tls.writeRound
    split
    · split <;> exact trivial
    · rename_i h; exact .inr (by simpa using h)
  | .at .reading e s =>
    show Flushed t (t.readRound .writing e s)
    unfold Tls.readRound
    split
    · rename_i hc
      rw [Bool.and_eq_true] at hc
      split
      · rename_i hr; exact .inl (hend _ _ _ _ hc.1 hr)
      · split <;> exact trivial
      · exact trivial
      · exact trivial
    · exact trivial
  | .at .after e s =>
    show Flushed t (t.finish e s)
    unfold Tls.finish
    split
    · exact trivial
    · rename_i hn
      rcases h with h | h
      · exact absurd h hn
      · exact h
  | .done r => exact h

/-- The server's stream starts with nothing left to write of the handshake. -/
theorem C57_server_written {α : Type} (a : TlsAcceptor α ε σ) (t : Tls ε σ) (hend : EndIsNoHandshake t)
    (hnew : ∀ y e, a.intoConnection y = .ok e → t.isHandshaking e = true) (accepted : Res σ) (n : Nat) (e : ε) (s' : σ)
    (h : SslListener.accept a t accepted n = .done (.ok (e, s'))) : t.wantsWrite e = false := by
  unfold SslListener.accept at h
  match accepted with
  | .ok s =>
    dsimp only at h
    have : Flushed t (a.start s) := by
      rcases start_cases a s with h | h | ⟨_, _, _, y, e, _, _, h2, h⟩ <;> rw [h]
      · exact trivial
      · exact trivial
      · exact .inl (hnew y e h2)
    have := Shake.steps_inv (flushed_server hend) n this
    rw [h] at this
    exact this
  | .err _ => simp at h
  | .panic => simp at h

theorem Shake.steps_add {step : Shake ε σ → Shake ε σ} (m n : Nat) (x : Shake ε σ) :
    Shake.steps step (m + n) x = Shake.steps step n (Shake.steps step m x) := by
  induction m generalizing x with
  | zero => rw [Nat.zero_add]; rfl
  | succ m ih => rw [Nat.succ_add, Shake.steps, ih]; rfl

/-- If the transport ends while the client reads, the client's call returns an error. -/
theorem C57_client_closed (t : Tls ε σ) (hend : EndIsNoHandshake t) (conn : Res ε) (s : σ) (n : Nat) (e e' : ε) (s1 s2 : σ)
    (h : SslClientStream.new t conn s n = .at .reading e s1) (hh : t.isHandshaking e = true) (hw : t.wantsRead e = true)
    (hr : t.readTls e s1 = (.ok 0, e', s2)) : SslClientStream.new t conn s (n + 2) = .done (.err .ssl) := by
  unfold SslClientStream.new at h ⊢
  match conn with
  | .ok e0 =>
    dsimp only at h ⊢
    rw [Shake.steps_add, h]
    simp [Shake.steps, Tls.clientStep, Tls.readRound, hh, hw, hr, Tls.finish, hend _ _ _ _ hh hr]
  | .err _ => simp at h
  | .panic => simp at h

/-- If the transport ends while the server reads, `accept` returns an error. -/
theorem C57_server_closed {α : Type} (a : TlsAcceptor α ε σ) (t : Tls ε σ) (hend : EndIsNoHandshake t) (accepted : Res σ)
    (n : Nat) (e e' : ε) (s1 s2 : σ)
    (h : SslListener.accept a t accepted n = .at .reading e s1) (hh : t.isHandshaking e = true) (hw : t.wantsRead e = true)
    (hr : t.readTls e s1 = (.ok 0, e', s2)) : SslListener.accept a t accepted (n + 2) = .done (.err .ssl) := by
  unfold SslListener.accept at h ⊢
  match accepted with
  | .ok s =>
    dsimp only at h ⊢
    rw [Shake.steps_add, h]
    simp [Shake.steps, Tls.serverStep, Tls.readRound, hh, hw, hr, Tls.finish, hend _ _ _ _ hh hr]
  | .err _ => simp at h
  | .panic => simp at h

/-- A run that has returned. -/
def Returned (x : Shake ε σ) : Prop := ∃ r, x = .done r

theorem client_terminates (t : Tls ε σ) (w : ε → Nat) (rd : σ → Nat) (hp : Progress t w rd) :
    ∀ (k : Nat) (pc : Pc) (e : ε) (s : σ), rd s ≤ k → ∃ n, Returned (Shake.steps t.clientStep n (.at pc e s)) := by
  have hafter : ∀ (e : ε) (s : σ), ∃ n, Returned (Shake.steps t.clientStep n (.at .after e s)) := by
    intro e s
    refine ⟨1, ?_⟩
    show Returned (t.finish e s)
    unfold Tls.finish
    split <;> exact ⟨_, rfl⟩
  have hstep : ∀ {x : Shake ε σ}, (∃ n, Returned (Shake.steps t.clientStep n (t.clientStep x))) →
      ∃ n, Returned (Shake.steps t.clientStep n x) := fun ⟨n, h⟩ => ⟨n + 1, h⟩
  have hdone : ∀ r, ∃ n, Returned (Shake.steps t.clientStep n (.done r)) := fun r => ⟨0, r, rfl⟩
  intro k
  induction k using Nat.strongRecOn with
  | ind k ih =>
  -- reading with something wanted to read
  have hread : ∀ (e : ε) (s : σ), rd s ≤ k → t.isHandshaking e = true → t.wantsRead e = true →
      ∃ n, Returned (Shake.steps t.clientStep n (.at .reading e s)) := by
    intro e s hk hh hw
    apply hstep
    show ∃ n, Returned (Shake.steps t.clientStep n (t.readRound .outer e s))
    unfold Tls.readRound
    rw [if_pos (by rw [hh, hw]; rfl)]
    rcases hr : t.readTls e s with ⟨r, e', s'⟩
    match r with
    | .ok 0 => exact hafter _ _
    | .ok (m + 1) =>
      dsimp only
      have := hp.read _ _ _ _ _ hr
      rcases hpr : t.process e' with ⟨r', e''⟩
      match r' with
      | .ok () => exact ih (rd s') (by omega) .reading e'' s' (Nat.le_refl _)
      | .err _ => exact hdone _
      | .panic => exact hdone _
    | .err _ => exact hdone _
    | .panic => exact hdone _
  have hover : ∀ (pc : Pc) (e : ε) (s : σ), pc = .outer ∨ pc = .reading → t.isHandshaking e = false →
      ∃ n, Returned (Shake.steps t.clientStep n (.at pc e s)) := by
    have houter : ∀ (e : ε) (s : σ), t.isHandshaking e = false →
        ∃ n, Returned (Shake.steps t.clientStep n (.at .outer e s)) := by
      intro e s hh
      apply hstep
      show ∃ n, Returned (Shake.steps t.clientStep n (.at (if t.isHandshaking e then .writing else .after) e s))
      rw [if_neg (by rw [hh]; simp)]
      exact hafter _ _
    intro pc e s hpc hh
    rcases hpc with rfl | rfl
    · exact houter e s hh
    · apply hstep
      show ∃ n, Returned (Shake.steps t.clientStep n (t.readRound .outer e s))
      unfold Tls.readRound
      rw [if_neg (by rw [hh]; simp)]
      exact houter e s hh
  -- writing
  have hwrite : ∀ (j : Nat) (e : ε) (s : σ), rd s ≤ k → w e ≤ j →
      ∃ n, Returned (Shake.steps t.clientStep n (.at .writing e s)) := by
    intro j
    induction j using Nat.strongRecOn with
    | ind j ihj =>
    intro e s hk hj
    apply hstep
    show ∃ n, Returned (Shake.steps t.clientStep n (t.writeRound .reading e s))
    unfold Tls.writeRound
    split
    · rcases hr : t.writeTls e s with ⟨r, e', s'⟩
      match r with
      | .ok 0 => exact hdone _
      | .ok (m + 1) =>
        have := hp.write _ _ _ _ _ hr
        exact ihj (w e') (by omega) e' s' (by omega) (Nat.le_refl _)
      | .err _ => exact hdone _
      | .panic => exact hdone _
    · rename_i hw
      by_cases hh : t.isHandshaking e = true
      · exact hread e s hk hh (hp.wants e hh (by simpa using hw))
      · exact hover .reading e s (.inr rfl) (by simpa using hh)
  have houter : ∀ (e : ε) (s : σ), rd s ≤ k → ∃ n, Returned (Shake.steps t.clientStep n (.at .outer e s)) := by
    intro e s hk
    by_cases hh : t.isHandshaking e = true
    · apply hstep
      show ∃ n, Returned (Shake.steps t.clientStep n (.at (if t.isHandshaking e then .writing else .after) e s))
      rw [if_pos hh]
      exact hwrite (w e) e s hk (Nat.le_refl _)
    · exact hover .outer e s (.inl rfl) (by simpa using hh)
  intro pc e s hk
  match pc with
  | .after => exact hafter e s
  | .writing => exact hwrite (w e) e s hk (Nat.le_refl _)
  | .outer => exact houter e s hk
  | .reading =>
    by_cases hc : (t.isHandshaking e && t.wantsRead e) = true
    · rw [Bool.and_eq_true] at hc
      exact hread e s hk hc.1 hc.2
    · apply hstep
      show ∃ n, Returned (Shake.steps t.clientStep n (t.readRound .outer e s))
      unfold Tls.readRound
      rw [if_neg hc]
      exact houter e s hk

theorem server_terminates (t : Tls ε σ) (w : ε → Nat) (rd : σ → Nat) (hp : Progress t w rd) :
    ∀ (k : Nat) (pc : Pc) (e : ε) (s : σ), rd s ≤ k → ∃ n, Returned (Shake.steps t.serverStep n (.at pc e s)) := by
  have hafter : ∀ (e : ε) (s : σ), ∃ n, Returned (Shake.steps t.serverStep n (.at .after e s)) := by
    intro e s
    refine ⟨1, ?_⟩
    show Returned (t.finish e s)
    unfold Tls.finish
    split <;> exact ⟨_, rfl⟩
  have hstep : ∀ {x : Shake ε σ}, (∃ n, Returned (Shake.steps t.serverStep n (t.serverStep x))) →
      ∃ n, Returned (Shake.steps t.serverStep n x) := fun ⟨n, h⟩ => ⟨n + 1, h⟩
  have hdone : ∀ r, ∃ n, Returned (Shake.steps t.serverStep n (.done r)) := fun r => ⟨0, r, rfl⟩
  intro k
  induction k using Nat.strongRecOn with
  | ind k ih =>
  have hread : ∀ (e : ε) (s : σ), rd s ≤ k → t.isHandshaking e = true → t.wantsRead e = true →
      ∃ n, Returned (Shake.steps t.serverStep n (.at .reading e s)) := by
    intro e s hk hh hw
    apply hstep
    show ∃ n, Returned (Shake.steps t.serverStep n (t.readRound .writing e s))
    unfold Tls.readRound
    rw [if_pos (by rw [hh, hw]; rfl)]
    rcases hr : t.readTls e s with ⟨r, e', s'⟩
    match r with
    | .ok 0 => exact hafter _ _
    | .ok (m + 1) =>
      dsimp only
      have := hp.read _ _ _ _ _ hr
      rcases hpr : t.process e' with ⟨r', e''⟩
      match r' with
      | .ok () => exact ih (rd s') (by omega) .reading e'' s' (Nat.le_refl _)
      | .err _ => exact hdone _
      | .panic => exact hdone _
    | .err _ => exact hdone _
    | .panic => exact hdone _
  have houter0 : ∀ (e : ε) (s : σ), t.isHandshaking e = false →
      ∃ n, Returned (Shake.steps t.serverStep n (.at .outer e s)) := by
    intro e s hh
    apply hstep
    show ∃ n, Returned (Shake.steps t.serverStep n (.at (if t.isHandshaking e then .reading else .after) e s))
    rw [if_neg (by rw [hh]; simp)]
    exact hafter _ _
  have houter1 : ∀ (e : ε) (s : σ), rd s ≤ k → t.wantsWrite e = false →
      ∃ n, Returned (Shake.steps t.serverStep n (.at .outer e s)) := by
    intro e s hk hw
    by_cases hh : t.isHandshaking e = true
    · apply hstep
      show ∃ n, Returned (Shake.steps t.serverStep n (.at (if t.isHandshaking e then .reading else .after) e s))
      rw [if_pos hh]
      exact hread e s hk hh (hp.wants e hh hw)
    · exact houter0 e s (by simpa using hh)
  have hwrite : ∀ (j : Nat) (e : ε) (s : σ), rd s ≤ k → w e ≤ j →
      ∃ n, Returned (Shake.steps t.serverStep n (.at .writing e s)) := by
    intro j
    induction j using Nat.strongRecOn with
    | ind j ihj =>
    intro e s hk hj
    apply hstep
    show ∃ n, Returned (Shake.steps t.serverStep n (t.writeRound .outer e s))
    unfold Tls.writeRound
    split
    · rcases hr : t.writeTls e s with ⟨r, e', s'⟩
      match r with
      | .ok 0 => exact hdone _
      | .ok (m + 1) =>
        have := hp.write _ _ _ _ _ hr
        exact ihj (w e') (by omega) e' s' (by omega) (Nat.le_refl _)
      | .err _ => exact hdone _
      | .panic => exact hdone _
    · rename_i hw
      exact houter1 e s hk (by simpa using hw)
  have hreading : ∀ (e : ε) (s : σ), rd s ≤ k → ∃ n, Returned (Shake.steps t.serverStep n (.at .reading e s)) := by
    intro e s hk
    by_cases hc : (t.isHandshaking e && t.wantsRead e) = true
    · rw [Bool.and_eq_true] at hc
      exact hread e s hk hc.1 hc.2
    · apply hstep
      show ∃ n, Returned (Shake.steps t.serverStep n (t.readRound .writing e s))
      unfold Tls.readRound
      rw [if_neg hc]
      exact hwrite (w e) e s hk (Nat.le_refl _)
  intro pc e s hk
  match pc with
  | .after => exact hafter e s
  | .writing => exact hwrite (w e) e s hk (Nat.le_refl _)
  | .reading => exact hreading e s hk
  | .outer =>
    by_cases hh : t.isHandshaking e = true
    · apply hstep
      show ∃ n, Returned (Shake.steps t.serverStep n (.at (if t.isHandshaking e then .reading else .after) e s))
      rw [if_pos hh]
      exact hreading e s hk
    · exact houter0 e s (by simpa using hh)

/-- Over a transport that ends, with a TLS library that always wants to write or to read, both calls return. -/
theorem C57_returns {α : Type} (t : Tls ε σ) (w : ε → Nat) (rd : σ → Nat) (hp : Progress t w rd) :
    (∀ (conn : Res ε) (s : σ), ∃ n r, SslClientStream.new t conn s n = .done r) ∧
    ∀ (a : TlsAcceptor α ε σ) (accepted : Res σ), ∃ n r, SslListener.accept a t accepted n = .done r := by
  refine ⟨fun conn s => ?_, fun a accepted => ?_⟩
  · match conn with
    | .ok e => exact client_terminates t w rd hp (rd s) .outer e s (Nat.le_refl _)
    | .err _ => exact ⟨0, _, rfl⟩
    | .panic => exact ⟨0, _, rfl⟩
  · match accepted with
    | .ok s =>
      rcases start_cases a s with h | h | ⟨_, _, s', y, e, _, _, h2, h⟩
      · exact ⟨0, .err .ssl, h⟩
      · exact ⟨0, .panic, h⟩
      · obtain ⟨n, r, hn⟩ := server_terminates t w rd hp (rd s') .outer e s' (Nat.le_refl _)
        refine ⟨n, r, ?_⟩
        unfold SslListener.accept
        dsimp only
        rw [h, hn]
    | .err e => exact ⟨0, .err e, rfl⟩
    | .panic => exact ⟨0, .panic, rfl⟩

/-- A small TLS library for the witnesses: the handshake needs `need` more bytes from the peer; `out` is to be written;
when the last byte needed has come, `last` is to be written too. -/
structure Toy where
  need : Nat
  out : Bytes
  last : Bytes
deriving DecidableEq

/-- A transport for the witnesses: what it will deliver, read by read, and what was written. -/
structure ToyWire where
  input : List Bytes
  output : Bytes
deriving DecidableEq

/-- The small library: it writes two bytes at a time. -/
def toyTls : Tls Toy ToyWire where
  isHandshaking e := 0 < e.need
  wantsWrite e := !e.out.isEmpty
  wantsRead e := e.out.isEmpty
  writeTls e s := (.ok (e.out.take 2).length, { e with out := e.out.drop 2 }, { s with output := s.output ++ e.out.take 2 })
  readTls e s :=
    match s.input with
    | [] => (.ok 0, e, s)
    | x :: xs =>
      (.ok x.length, if 0 < e.need ∧ e.need ≤ x.length then { e with need := 0, out := e.out ++ e.last } else { e with need := e.need - x.length },
        { s with input := xs })
  process e := (.ok (), e)

/-- Witness: a handshake over two writes and two reads completes and hands out a stream; when the peer closes after
the first read, it fails. -/
example : EndIsNoHandshake toyTls ∧
    (match SslClientStream.new toyTls (.ok ⟨4, b!"hey", b!""⟩) ⟨[b!"he", b!"llo"], []⟩ 20 with
      | .done (.ok (e, s)) => decide (e = ⟨0, [], []⟩ ∧ s = ⟨[], b!"hey"⟩)
      | _ => false) = true ∧
    (match SslClientStream.new toyTls (.ok ⟨4, b!"hey", b!""⟩) ⟨[b!"he"], []⟩ 20 with
      | .done (.err .ssl) => true
      | _ => false) = true := by
  refine ⟨?_, by decide +kernel, by decide +kernel⟩
  intro e s e' s' hh hr
  unfold toyTls at hr
  dsimp only at hr
  split at hr
  · simp only [Prod.mk.injEq] at hr
    rw [← hr.2.1]; exact hh
  · rename_i x xs _
    simp only [Prod.mk.injEq, Res.ok.injEq] at hr
    have hx : x = [] := List.eq_nil_of_length_eq_zero hr.1
    rw [← hr.2.1, hx]
    simp only [toyTls, decide_eq_true_eq] at hh
    simp only [List.length_nil]
    rw [if_neg (by omega)]
    simpa [toyTls] using hh

/-- Witness: a server accepts a client whose ClientHello comes in one read: it writes its answer, reads the client's,
and hands out a stream with nothing left to write. -/
example :
    let a : TlsAcceptor Bytes Toy ToyWire :=
      { new := [], readTls := fun x s => (.ok (s.input.headD []).length, x ++ s.input.headD [], { s with input := s.input.tail }),
        accept := fun x => .ok (if x = b!"hello" then some x else none), intoConnection := fun _ => .ok ⟨3, b!"hi", b!"!"⟩ }
    (∀ y e, a.intoConnection y = .ok e → toyTls.isHandshaking e = true) ∧
    SslListener.accept a toyTls (.ok ⟨[b!"hello", b!"fin"], []⟩) 20 = .done (.ok (⟨0, [], b!"!"⟩, ⟨[], b!"hi!"⟩)) := by
  refine ⟨fun y e h => ?_, by decide +kernel⟩
  simp only [Res.ok.injEq] at h
  rw [← h]; decide

/-- Witness: the small library makes progress over a transport whose reads bring something. -/
example : Progress toyTls (fun e => e.out.length) (fun s => s.input.length) := by
  refine ⟨fun e _ h => by simpa [toyTls] using h, ?_, ?_⟩
  · intro e s e' s' n h
    simp only [toyTls, Prod.mk.injEq, Res.ok.injEq] at h
    obtain ⟨h1, h2, h3⟩ := h
    rw [← h2, ← h3]
    rw [List.length_take] at h1
    simp only [List.length_drop]
    omega
  · intro e s e' s' n h
    unfold toyTls at h
    dsimp only at h
    split at h
    · simp at h
    · rename_i hs
      simp only [Prod.mk.injEq] at h
      rw [← h.2.2, hs]
      simp

/-- The client's stream may start with a part of the handshake left to write: the last message of the client, produced
by the read that completes the handshake, is not written before `SslClientStream::new` returns. (The stream writes it on
its first use.) -/
theorem C57_client_written_false : ¬ ∀ (t : Tls Toy ToyWire), EndIsNoHandshake t → ∀ (e0 : Toy), t.isHandshaking e0 = true →
    ∀ (s : ToyWire) (n : Nat) (e : Toy) (s' : ToyWire), SslClientStream.new t (.ok e0) s n = .done (.ok (e, s')) →
      t.wantsWrite e = false := by
  intro h
  have hend : EndIsNoHandshake toyTls := by
    intro e s e' s' hh hr
    unfold toyTls at hr
    dsimp only at hr
    split at hr
    · simp only [Prod.mk.injEq] at hr
      rw [← hr.2.1]; exact hh
    · rename_i x xs _
      simp only [Prod.mk.injEq, Res.ok.injEq] at hr
      have hx : x = [] := List.eq_nil_of_length_eq_zero hr.1
      rw [← hr.2.1, hx]
      simp only [toyTls, decide_eq_true_eq] at hh
      simp only [List.length_nil]
      rw [if_neg (by omega)]
      simpa [toyTls] using hh
  have := h toyTls hend ⟨4, b!"hey", b!"fin"⟩ (by decide) ⟨[b!"hello"], []⟩ 20 ⟨0, b!"fin", b!"fin"⟩ ⟨[], b!"hey"⟩ (by decide +kernel)
  exact absurd this (by decide)

/-! C60: a ClientHello that arrives in pieces. -/

/-- `accept` reads once: if that does not bring the whole ClientHello, the connection is refused, whatever follows. -/
theorem C60_one_read {α : Type} (a : TlsAcceptor α ε σ) (t : Tls ε σ) (s s' : σ) (x : α) (k : Nat)
    (hr : a.readTls a.new s = (.ok k, x, s')) (hx : a.accept x = .ok none) (n : Nat) :
    SslListener.accept a t (.ok s) n = .done (.err .ssl) := by
  unfold SslListener.accept TlsAcceptor.start
  dsimp only
  rw [hr]
  dsimp only
  rw [hx]
  dsimp only
  exact Shake.steps_done (fun _ => rfl) n _

/-- So it is false that a ClientHello may arrive in any pieces: with an acceptor that collects its input, and a library
that needs nothing but the ClientHello, a client whose ClientHello comes in one piece is accepted, but the same bytes in
two pieces are refused. -/
theorem C60_pieces_false : ¬ ∀ (complete : Bytes → Bool) (t : Tls Bytes (List Bytes)) (pieces : List Bytes) (hello : Bytes),
    pieces.flatten = hello → complete hello = true → (∀ e, t.isHandshaking e = false) →
    ∃ n e s', SslListener.accept (collecting complete id) t (.ok pieces) n = .done (.ok (e, s')) := by
  intro h
  obtain ⟨n, e, s', h1⟩ := h (fun x => x == b!"hello")
    ⟨fun _ => false, fun _ => false, fun _ => false, fun e s => (.ok 0, e, s), fun e s => (.ok 0, e, s), fun e => (.ok (), e)⟩
    [b!"he", b!"llo"] b!"hello" (by decide) (by decide) (fun _ => rfl)
  rw [C60_one_read (collecting _ id) _ [b!"he", b!"llo"] [b!"llo"] b!"he" 2 rfl rfl] at h1
  simp at h1

/-- In one piece, the ClientHello is accepted. -/
theorem C60_whole_partial (complete : Bytes → Bool) (conn : Bytes → ε) (t : Tls ε (List Bytes)) (hello : Bytes) (more : List Bytes)
    (hc : complete hello = true) :
    SslListener.accept (collecting complete conn) t (.ok (hello :: more)) 0 = .at .outer (conn hello) more := by
  simp [SslListener.accept, Shake.steps, TlsAcceptor.start, collecting, hc]

/-- Witness. -/
example : (fun x => x == b!"hello") b!"hello" = true ∧ (collecting (fun x => x == b!"hello") id).accept b!"he" = .ok none :=
  ⟨rfl, rfl⟩

/-! C61: panics during a handshake. -/

/-- Not a panic. -/
def Quiet : Shake ε σ → Prop
  | .done .panic => False
  | _ => True

theorem quiet_write {t : Tls ε σ} (hc : Calm t) (ha : Accepts t) {next : Pc} {e : ε} {s : σ} :
    Quiet (t.writeRound next e s) := by
  unfold Tls.writeRound
  split
  · rename_i hw
    have h1 := hc.write e s
    have h2 := ha e s hw
    split
    · rename_i h; rw [h] at h2; exact absurd rfl h2
    · exact trivial
    · exact trivial
    · rename_i h; rw [h] at h1; exact absurd rfl h1
  · exact trivial

theorem quiet_read {t : Tls ε σ} (hc : Calm t) {next : Pc} {e : ε} {s : σ} : Quiet (t.readRound next e s) := by
  unfold Tls.readRound
  split
  · have h1 := hc.read e s
    split
    · exact trivial
    · rename_i e' _ _
      have h2 := hc.process e'
      split
      · exact trivial
      · exact trivial
      · rename_i h; rw [h] at h2; exact absurd rfl h2
    · exact trivial
    · rename_i h; rw [h] at h1; exact absurd rfl h1
  · exact trivial

theorem quiet_finish {t : Tls ε σ} {e : ε} {s : σ} : Quiet (t.finish e s) := by
  unfold Tls.finish
  split <;> exact trivial

/-- A handshake panics only if the TLS library does, or if the transport accepts none of the bytes to be written. -/
theorem C61_no_panic_partial {α : Type} (t : Tls ε σ) (hc : Calm t) (ha : Accepts t) :
    (∀ (conn : Res ε) (s : σ) (n : Nat), conn ≠ .panic → SslClientStream.new t conn s n ≠ .done .panic) ∧
    ∀ (a : TlsAcceptor α ε σ) (accepted : Res σ) (n : Nat), TlsAcceptor.Calm a → accepted ≠ .panic →
      SslListener.accept a t accepted n ≠ .done .panic := by
  have hclient : ∀ x : Shake ε σ, Quiet x → Quiet (t.clientStep x) := by
    intro x h
    match x with
    | .at .outer e s => exact trivial
    | .at .writing e s => exact quiet_write hc ha
    | .at .reading e s => exact quiet_read hc
    | .at .after e s => exact quiet_finish
    | .done r => exact h
  have hserver : ∀ x : Shake ε σ, Quiet x → Quiet (t.serverStep x) := by
    intro x h
    match x with
    | .at .outer e s => exact trivial
    | .at .writing e s => exact quiet_write hc ha
    | .at .reading e s => exact quiet_read hc
    | .at .after e s => exact quiet_finish
    | .done r => exact h
  refine ⟨fun conn s n hn h => ?_, fun a accepted n hcalm hn h => ?_⟩
  · unfold SslClientStream.new at h
    match conn with
    | .ok e =>
      have := Shake.steps_inv hclient n (x := .at .outer e s) trivial
      dsimp only at h
      rw [h] at this
      exact this
    | .err _ => simp at h
    | .panic => exact hn rfl
  · unfold SslListener.accept at h
    match accepted with
    | .ok s =>
      have hs : Quiet (a.start s) := by
        unfold TlsAcceptor.start
        have h1 := hcalm.read a.new s
        split
        · exact trivial
        · rename_i h; rw [h] at h1; exact absurd rfl h1
        · rename_i x _ _
          have h2 := hcalm.accept x
          split
          · exact trivial
          · rename_i h; exact absurd h h2
          · exact trivial
          · rename_i y _
            have h3 := hcalm.intoConnection y
            split
            · exact trivial
            · rename_i h; exact absurd h h3
            · exact trivial
      have := Shake.steps_inv hserver n hs
      dsimp only at h
      rw [h] at this
      exact this
    | .err _ => simp at h
    | .panic => exact hn rfl

/-- Whoever ends in a panic made a step into it. -/
theorem steps_into_panic {step : Shake ε σ → Shake ε σ} (n : Nat) {x : Shake ε σ} (hx : Quiet x)
    (h : Shake.steps step n x = .done .panic) : ∃ k, Quiet (Shake.steps step k x) ∧ step (Shake.steps step k x) = .done .panic := by
  induction n generalizing x with
  | zero => rw [show Shake.steps step 0 x = x from rfl] at h; rw [h] at hx; exact hx.elim
  | succ n ih =>
    by_cases hq : Quiet (step x)
    · obtain ⟨k, h1, h2⟩ := ih hq h
      exact ⟨k + 1, h1, h2⟩
    · refine ⟨0, hx, ?_⟩
      show step x = _
      match hs : step x with
      | .done .panic => rfl
      | .done (.ok _) => rw [hs] at hq; exact absurd trivial hq
      | .done (.err _) => rw [hs] at hq; exact absurd trivial hq
      | .at _ _ _ => rw [hs] at hq; exact absurd trivial hq

theorem write_panics {t : Tls ε σ} (hc : Calm t) {next : Pc} {e : ε} {s : σ} (h : t.writeRound next e s = .done .panic) :
    t.wantsWrite e = true ∧ (t.writeTls e s).1 = .ok 0 := by
  unfold Tls.writeRound at h
  split at h
  · rename_i hw
    refine ⟨hw, ?_⟩
    have h1 := hc.write e s
    split at h
    · rename_i h2; rw [h2]
    · simp at h
    · simp at h
    · rename_i h2; rw [h2] at h1; exact absurd rfl h1
  · simp at h

theorem panics_write {t : Tls ε σ} {next : Pc} {e : ε} {s : σ} (h1 : t.wantsWrite e = true) (h2 : (t.writeTls e s).1 = .ok 0) :
    t.writeRound next e s = .done .panic := by
  unfold Tls.writeRound
  rw [if_pos h1]
  rcases hx : t.writeTls e s with ⟨r, e', s'⟩
  rw [hx] at h2
  dsimp only at h2
  subst h2
  rfl

/-- The handshakes that panic are exactly those in which the transport, at a moment when there is something to write, accepts
none of it (for a TLS library that does not panic itself). -/
theorem C61_panics_iff {α : Type} (t : Tls ε σ) (hc : Calm t) :
    (∀ (conn : Res ε) (s : σ), conn ≠ .panic → ((∃ n, SslClientStream.new t conn s n = .done .panic) ↔
      ∃ n e s', SslClientStream.new t conn s n = .at .writing e s' ∧ t.wantsWrite e = true ∧ (t.writeTls e s').1 = .ok 0)) ∧
    ∀ (a : TlsAcceptor α ε σ) (accepted : Res σ), TlsAcceptor.Calm a → accepted ≠ .panic →
      ((∃ n, SslListener.accept a t accepted n = .done .panic) ↔
      ∃ n e s', SslListener.accept a t accepted n = .at .writing e s' ∧ t.wantsWrite e = true ∧ (t.writeTls e s').1 = .ok 0) := by
  have after {step : Shake ε σ → Shake ε σ} (k : Nat) (x : Shake ε σ) :
      Shake.steps step (k + 1) x = step (Shake.steps step k x) := by
    induction k generalizing x with
    | zero => rfl
    | succ k ih => exact ih (step x)
  have hclient : ∀ x : Shake ε σ, Quiet x → t.clientStep x = .done .panic →
      ∃ e s, x = .at .writing e s ∧ t.wantsWrite e = true ∧ (t.writeTls e s).1 = .ok 0 := by
    intro x hq h
    match x with
    | .at .outer e s => simp [Tls.clientStep] at h
    | .at .writing e s => exact ⟨e, s, rfl, write_panics hc h⟩
    | .at .reading e s => have := quiet_read hc (next := .outer) (e := e) (s := s); rw [show t.readRound .outer e s = _ from h] at this; exact this.elim
    | .at .after e s => have := quiet_finish (t := t) (e := e) (s := s); rw [show t.finish e s = _ from h] at this; exact this.elim
    | .done r => rw [show (Shake.done r : Shake ε σ) = .done .panic from h] at hq; exact hq.elim
  have hserver : ∀ x : Shake ε σ, Quiet x → t.serverStep x = .done .panic →
      ∃ e s, x = .at .writing e s ∧ t.wantsWrite e = true ∧ (t.writeTls e s).1 = .ok 0 := by
    intro x hq h
    match x with
    | .at .outer e s => simp [Tls.serverStep] at h
    | .at .writing e s => exact ⟨e, s, rfl, write_panics hc h⟩
    | .at .reading e s => have := quiet_read hc (next := .writing) (e := e) (s := s); rw [show t.readRound .writing e s = _ from h] at this; exact this.elim
    | .at .after e s => have := quiet_finish (t := t) (e := e) (s := s); rw [show t.finish e s = _ from h] at this; exact this.elim
    | .done r => rw [show (Shake.done r : Shake ε σ) = .done .panic from h] at hq; exact hq.elim
  refine ⟨fun conn s hn => ?_, fun a accepted hcalm hn => ?_⟩
  · match conn with
    | .ok e =>
      unfold SslClientStream.new
      dsimp only
      constructor
      · rintro ⟨n, h⟩
        obtain ⟨k, h1, h2⟩ := steps_into_panic n (x := .at .outer e s) trivial h
        obtain ⟨e', s', h3⟩ := hclient _ h1 h2
        exact ⟨k, e', s', h3⟩
      · rintro ⟨n, e', s', h1, h2, h3⟩
        refine ⟨n + 1, ?_⟩
        rw [after, h1]
        exact panics_write h2 h3
    | .err _ => simp [SslClientStream.new]
    | .panic => exact absurd rfl hn
  · match accepted with
    | .ok s =>
      have hs : Quiet (a.start s) := by
        by_cases hq : Quiet (a.start s)
        · exact hq
        · have := (C61_no_panic_partial { t with writeTls := fun e s => (.ok 1, e, s) } ⟨by simp, hc.read, hc.process⟩
            (by intro _ _ _; simp)).2 a (.ok s) 0 hcalm hn
          refine absurd ?_ this
          show a.start s = _
          match hs : a.start s with
          | .done .panic => rfl
          | .done (.ok _) => rw [hs] at hq; exact absurd trivial hq
          | .done (.err _) => rw [hs] at hq; exact absurd trivial hq
          | .at _ _ _ => rw [hs] at hq; exact absurd trivial hq
      unfold SslListener.accept
      dsimp only
      constructor
      · rintro ⟨n, h⟩
        obtain ⟨k, h1, h2⟩ := steps_into_panic n hs h
        obtain ⟨e', s', h3⟩ := hserver _ h1 h2
        exact ⟨k, e', s', h3⟩
      · rintro ⟨n, e', s', h1, h2, h3⟩
        refine ⟨n + 1, ?_⟩
        rw [after, h1]
        exact panics_write h2 h3
    | .err _ => simp [SslListener.accept]
    | .panic => exact absurd rfl hn

/-- The condition on the transport is needed: if it accepts none of the bytes, both calls panic. -/
theorem C61_no_panic_false : ¬ ∀ (t : Tls Toy ToyWire), Calm t → ∀ (e : Toy) (s : ToyWire) (n : Nat),
    SslClientStream.new t (.ok e) s n ≠ .done .panic := by
  intro h
  refine h { toyTls with writeTls := fun e s => (.ok 0, e, s) } ⟨by simp, ?_, ?_⟩ ⟨4, b!"hey", []⟩ ⟨[], []⟩ 2 (by decide +kernel)
  · intro e s
    simp only [toyTls]
    split <;> simp
  · intro e; simp [toyTls]

/-- Witness: the small library does not panic, and its transport accepts bytes. -/
example : Calm toyTls ∧ Accepts toyTls := by
  refine ⟨⟨by simp [toyTls], ?_, by simp [toyTls]⟩, ?_⟩
  · intro e s
    simp only [toyTls]
    split <;> simp
  · intro e s hw
    cases he : e.out with
    | nil => simp [toyTls, he] at hw
    | cons b l => simp [toyTls, he]

end HttpIo
