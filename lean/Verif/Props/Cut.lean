import Verif.Props.Listing

/-! A response whose body fails. -/

namespace HttpIo
open Spec

section
variable {c : Cfg} {σ ρ : Type} [LawfulReader ρ] [LawfulWriter σ] {P : σ → Prop}

theorem fails_byte {b : UInt8} {t t' : List Ev} {e : Err} : ¬ Fails c (.byte b :: t) e t' := by
  rintro ⟨_, pre, h, hp⟩
  cases pre with
  | nil => simp at h
  | cons x pre =>
    obtain ⟨e', h1, _⟩ := hp x (by simp)
    simp only [List.cons_append, List.cons.injEq] at h
    rw [← h.1] at h1
    simp at h1

theorem fails_fault {e' : Err} {t t' : List Ev} {e : Err} (h : Fails c (.fault e' :: t) e t') :
    (Retried c e' ∧ Fails c t e t') ∨ (¬ Retried c e' ∧ e = e' ∧ t = t') := by
  obtain ⟨hn, pre, h, hp⟩ := h
  cases pre with
  | nil =>
    simp only [List.nil_append, List.cons.injEq, Ev.fault.injEq] at h
    exact .inr ⟨by rw [h.1]; exact hn, h.1.symm, h.2⟩
  | cons x pre =>
    simp only [List.cons_append, List.cons.injEq] at h
    obtain ⟨e1, h1, h2⟩ := hp x (by simp)
    rw [h1, Ev.fault.injEq] at h
    exact .inl ⟨by rw [h.1]; exact h2, hn, pre, h.2, fun ev hev => hp ev (by simp [hev])⟩

theorem delivers_then_fails {e : Err} {t' t'' : List Ev} (hf : Fails c t' e t'') :
    ∀ (x : Bytes) (t : List Ev) (bs : Bytes), Delivers c (x.map .byte ++ t) bs t' → ∃ bs', bs = x ++ bs' ∧ Delivers c t bs' t' := by
  intro x
  induction x with
  | nil => intro t bs h; exact ⟨bs, rfl, h⟩
  | cons b x ih =>
    intro t bs h
    generalize hg : (b :: x).map Ev.byte ++ t = u at h
    cases h with
    | nil => rw [← hg] at hf; exact absurd hf fails_byte
    | byte b' h =>
      simp only [List.map_cons, List.cons_append, List.cons.injEq, Ev.byte.injEq] at hg
      rw [← hg.2] at h
      obtain ⟨bs', h1, h2⟩ := ih t _ h
      exact ⟨bs', by rw [h1, hg.1]; rfl, h2⟩
    | retry _ _ => simp at hg

/-- A copy from a reader that fails after `bs`. -/
theorem copy_fails (h : Reliable c P) {r : ρ} {s : σ} {n : Nat} (hs : P s) {bs : Bytes} {e : Err} {t' t'' : List Ev}
    (hd : Delivers c (trace r) bs t') (hf : Fails c t' e t'') :
    ∃ r' s', copy c r s n = (.error e, r', s') ∧ sent s' = sent s ++ bs ∧ P s' := by
  fun_induction copy c r s n generalizing bs t' with
  | case1 r w n r1 hr =>
    have := LawfulReader.read_step r _ (copySize_pos c r)
    rw [hr] at this
    rcases this.ok_inv with ⟨_, ht, _⟩ | ⟨h1, _⟩
    · rw [ht] at hd
      cases hd
      obtain ⟨_, pre, h1, _⟩ := hf
      simp at h1
    · exact absurd rfl h1
  | case2 r w n b bs' r1 hr w1 hw ih =>
    have h2 := h.writeAll_next w (b :: bs') hs
    rw [hw] at h2
    have ht := trace_of_data (copySize_pos _ _) (by simp) hr
    rw [ht] at hd
    obtain ⟨bs2, rfl, hd'⟩ := delivers_then_fails hf _ _ _ hd
    obtain ⟨r', s', h3, h4, h5⟩ := ih h2 hd' hf
    refine ⟨r', s', h3, ?_, h5⟩
    rw [h4, LawfulWriter.writeAll_ok_sent hw, List.append_assoc]
  | case3 r w n b bs' r1 hr e1 w1 hw =>
    have h2 := h.writeAll_ok w (b :: bs') hs
    rw [hw] at h2
    simp at h2
  | case4 r w n e1 r1 hr hret ih =>
    have := LawfulReader.read_step r _ (copySize_pos c r)
    rw [hr] at this
    have ht := this.error_inv
    dsimp only at ht
    rw [ht] at hd
    generalize hg : Ev.fault e1 :: trace r1 = u at hd
    cases hd with
    | nil =>
      rw [← hg] at hf
      rcases fails_fault hf with ⟨_, h2⟩ | ⟨h2, _⟩
      · exact ih hs (.nil (trace r1)) h2
      · exact absurd ((retries_iff).1 hret) h2
    | byte => simp at hg
    | retry h3 h4 =>
      simp only [List.cons.injEq] at hg
      rw [← hg.2] at h4
      exact ih hs h4 hf
  | case5 r w n e1 r1 hr hre =>
    have := LawfulReader.read_step r _ (copySize_pos c r)
    rw [hr] at this
    have ht := this.error_inv
    dsimp only at ht
    rw [ht] at hd
    generalize hg : Ev.fault e1 :: trace r1 = u at hd
    cases hd with
    | nil =>
      rw [← hg] at hf
      rcases fails_fault hf with ⟨h2, _⟩ | ⟨_, h2, _⟩
      · exact absurd ((retries_iff).2 h2) hre
      · exact ⟨_, _, by rw [h2], by simp, hs⟩
    | byte => simp at hg
    | retry h3 h4 =>
      simp only [List.cons.injEq, Ev.fault.injEq] at hg
      rw [← hg.1] at h3
      exact absurd ((retries_iff).2 h3) hre

end

/-! ### C85 -/

section
variable [CaseMap] {c : Cfg} {η σ ρ ε : Type} [LawfulReader σ] [ZeroReader σ] [LawfulWriter σ] [LawfulReader ρ] [ZeroReader ρ]

/-- Full statement: who receives a response can tell whether its body failed on the server. What holds: only the server can.
On a connection that takes everything, the head and what the body gave before it failed are sent, nothing marks the place,
and `serve_one` reports the failure to its caller. -/
theorem C85_cut_partial {P : σ → Prop} (hra : ReadsApart σ) (hrel : Reliable c P) (hkept : ∀ s n, P s → P (read s n).2)
    (h : Handler c η σ ρ ε) (ho : OnlyReads h) (errText : Err → Bytes) (s : σ) (self : η) (hs : P s)
    (r : ServerResponse c ρ)
    (hi : (h.serveOneInner errText s self).1 = .ok r ∨ (h.serveOneInner errText s self).1 = .err r)
    (hv1 : r.version.major < 10) (hv2 : r.version.minor < 10)
    (bs : Bytes) (t' t'' : List Ev) (e : Err) (hd : Delivers c (trace r.body) bs t') (hf : Fails c t' e t'') :
    (h.serveOne errText (.ok s) self).1 = .err e ∧
    ∃ d, (h.serveOne errText (.ok s) self).2.1 = some d ∧ P d ∧
      sent d = sent s ++ versionedHead r.version.major r.version.minor r.status.display r.headers.entries ++ bs := by
  have hsent := inner_sent hra h ho errText s self
  have hP := inner_kept ⟨hkept⟩ h ho errText self hs
  obtain ⟨h1, h2⟩ := serveOne_respond h errText s self r hi
  obtain ⟨s1, w1, w2⟩ := hrel.writePieces_ok (ps := r.headPieces) hP
  obtain ⟨b, s2, w3, w4, w5⟩ := copy_fails hrel (r := r.body) (n := 0) w2 hd hf
  have hresp : respond c r (h.serveOneInner errText s self).2.1 = (.error e, b, s2) := by
    unfold respond HttpResponse.serialize
    rw [w1]
    dsimp only
    rw [w3]
  rw [hresp] at h1 h2
  refine ⟨h1, s2, h2, w5, ?_⟩
  obtain ⟨_, p, _, g2, g3⟩ := writePieces_sent w1
  rw [w4, g2, g3 rfl, hsent, response_versioned r hv1 hv2]

/-- False in general, for every response: a server whose response has the same head and has only these bytes in its body
sends the same, and succeeds. -/
theorem C85_cut_same {P : σ → Prop} (hra : ReadsApart σ) (hrel : Reliable c P) (hkept : ∀ s n, P s → P (read s n).2)
    {η' ρ' ε' : Type} [LawfulReader ρ'] [ZeroReader ρ']
    (h : Handler c η σ ρ ε) (ho : OnlyReads h) (h' : Handler c η' σ ρ' ε') (ho' : OnlyReads h')
    (errText : Err → Bytes) (s : σ) (self : η) (self' : η') (hs : P s) (r : ServerResponse c ρ) (r' : ServerResponse c ρ')
    (hi : (h.serveOneInner errText s self).1 = .ok r) (hi' : (h'.serveOneInner errText s self').1 = .ok r')
    (hv1 : r.version.major < 10) (hv2 : r.version.minor < 10)
    (hv : r'.version = r.version) (hst : r'.status = r.status) (hh : r'.headers.entries = r.headers.entries)
    (bs : Bytes) (e : Err) (t' t'' : List Ev) (hd : Delivers c (trace r.body) bs t') (hf : Fails c t' e t'')
    (hy : Yields r'.body bs) :
    (h.serveOne errText (.ok s) self).1 = .err e ∧ (h'.serveOne errText (.ok s) self').1 = .ok () ∧
    (h.serveOne errText (.ok s) self).2.1.map sent = (h'.serveOne errText (.ok s) self').2.1.map sent := by
  obtain ⟨a1, d, a2, _, a3⟩ := C85_cut_partial hra hrel hkept h ho errText s self hs r (.inl hi) hv1 hv2 bs t' t'' e hd hf
  obtain ⟨b1, d', b2, _, b3⟩ := C52_succeeds hra hrel hkept h' ho' errText s self' hs r' (.inl hi') (by rw [hv]; exact hv1)
    (by rw [hv]; exact hv2) bs [] (by rw [trace_of_yields hy]; simpa using delivers_map c bs []) (by simp [Ended])
  refine ⟨a1, b1, ?_⟩
  rw [a2, b2, Option.map_some, Option.map_some, a3, b3, hv, hst, hh]

end

/-- The file server of the documentation answers a GET of a directory, whose contents cannot be read, as one of an empty
file. -/
theorem C85_cut_false (c : Cfg) : let _ := asciiCase
    let server := fileHandler c (Duplex Wire Sink) b!"/srv" fun _ => []
    let fs : Fs := sampleFs.set [b!"srv", b!"empty"] []
    let onDir := server.serveOne (fun _ => []) (.ok (requestConn b!"GET / HTTP/1.1\r\n\r\n")) fs
    let onFile := server.serveOne (fun _ => []) (.ok (requestConn b!"GET /empty HTTP/1.1\r\n\r\n")) fs
    fs [b!"srv"] = some .dir ∧ fs [b!"srv", b!"empty"] = some (.file []) ∧
    onDir.1 = .err isDir ∧ onFile.1 = .ok () ∧
    onDir.2.1.map sent = some (utf8 "HTTP/1.1 200 OK\r\n\r\n") ∧ onFile.2.1.map sent = onDir.2.1.map sent := by
  intro inst server fs onDir onFile
  refine ⟨by decide, by decide, ?_, ?_, ?_, ?_⟩ <;> rcases c with ⟨_ | _⟩ <;> decide +kernel

/-- Answers every GET with a body that gives `ab` and then fails. -/
def cutHandler (c : Cfg) [CaseMap] : Handler c Unit (Duplex Wire Sink) Wire Err :=
  { Handler.defaults c Unit (Duplex Wire Sink) Wire Err (fun _ => ServerResponse.fromString c .InternalServerError []) with
    get := fun _ self => (.ok (HttpResponse.new c .OK (.B ⟨[.data b!"a", .data b!"b", .fault isDir]⟩)), self) }

/-- Witness for `C85_cut_partial` and `C85_cut_same`. -/
example : let _ := asciiCase
    ((cutHandler ⟨false⟩).serveOne (fun _ => []) (.ok (requestConn b!"GET / HTTP/1.1\r\n\r\n")) ()).1 = .err isDir ∧
    ((cutHandler ⟨false⟩).serveOne (fun _ => []) (.ok (requestConn b!"GET / HTTP/1.1\r\n\r\n")) ()).2.1.map sent =
      some b!"HTTP/1.1 200 OK\r\n\r\nab" ∧
    (match ((cutHandler ⟨false⟩).serveOneInner (fun _ => []) (requestConn b!"GET / HTTP/1.1\r\n\r\n") ()).1 with
      | .ok r => decide (r.version = ⟨1, 1⟩ ∧ trace r.body = [.byte 97, .byte 98, .fault isDir])
      | _ => false) = true ∧
    Delivers ⟨false⟩ [.byte 97, .byte 98, .fault isDir] b!"ab" [.fault isDir] ∧ Fails ⟨false⟩ [.fault isDir] isDir [] := by
  intro inst
  refine ⟨by decide +kernel, by decide +kernel, by decide +kernel, .byte 97 (.byte 98 (.nil _)), ?_, [], rfl, by simp [Ended]⟩
  rintro ⟨h, _⟩
  simp at h

end HttpIo
