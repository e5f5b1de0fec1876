import Verif.Lemmas.Kept
import Verif.Lemmas.Reliable
import Verif.Lemmas.Outgoing
import Verif.Model.Socket

/-! Lemmas about clients over sockets. -/

namespace HttpIo
open Spec

section
variable {c : Cfg} {ρ σ : Type}

theorem duplex_kept [Writer σ] (r : ρ) : Kept fun d : Duplex ρ σ => d.rd = r :=
  ⟨fun _ _ h => h, fun _ h => h, fun _ _ _ h => h⟩

theorem duplex_reliable [Writer σ] {P : σ → Prop} (h : Reliable c P) : Reliable c fun d : Duplex ρ σ => P d.wr :=
  ⟨fun d buf hd => h.write_next d.wr buf hd, fun d hd => h.flush_next d.wr hd, fun d buf hd => h.writeAll_next d.wr buf hd,
    fun d buf hd hb => h.write_ok d.wr buf hd hb, fun d hd => h.flush_ok d.wr hd, fun d buf hd => h.writeAll_ok d.wr buf hd⟩

end

/-- A scripted sink whose plan holds only partial acceptances and interruptions that are repeated does not fail. -/
theorem sink_reliable (c : Cfg) : Reliable c fun s : Sink =>
    ∀ a ∈ s.plan, (∃ n, a = .accept (n + 1)) ∨ ∃ e, a = .fault e ∧ Retried c e := by
  have hn : ∀ (s : Sink) buf, (∀ a ∈ s.plan, (∃ n, a = .accept (n + 1)) ∨ ∃ e, a = .fault e ∧ Retried c e) →
      ∀ a ∈ (s.writeImpl buf).2.plan, (∃ n, a = .accept (n + 1)) ∨ ∃ e, a = .fault e ∧ Retried c e := by
    intro s buf hs a ha
    unfold Sink.writeImpl at ha
    split at ha <;> rename_i heq
    · exact hs a ha
    · exact hs a (by rw [heq]; exact List.mem_cons_of_mem _ ha)
    · exact hs a (by rw [heq]; exact List.mem_cons_of_mem _ ha)
  have hw : ∀ (s : Sink) buf, (∀ a ∈ s.plan, (∃ n, a = .accept (n + 1)) ∨ ∃ e, a = .fault e ∧ Retried c e) → buf ≠ [] →
      (∃ k, (s.writeImpl buf).1 = .ok (k + 1)) ∨ ∃ e, (s.writeImpl buf).1 = .error e ∧ Retried c e := by
    intro s buf hs hb
    have hl := List.length_pos_iff.2 hb
    unfold Sink.writeImpl
    split <;> rename_i heq
    · exact .inl ⟨buf.length - 1, by dsimp only; congr 1; omega⟩
    · rename_i n t
      rcases hs (.accept n) (by rw [heq]; simp) with ⟨m, hm⟩ | ⟨e, he, _⟩
      · simp only [WPlan.accept.injEq] at hm
        exact .inl ⟨min n buf.length - 1, by dsimp only; congr 1; omega⟩
      · simp at he
    · rename_i e t
      rcases hs (.fault e) (by rw [heq]; simp) with ⟨m, hm⟩ | ⟨e', he, h⟩
      · simp at hm
      · simp only [WPlan.fault.injEq] at he
        exact .inr ⟨e, rfl, by rw [he]; exact h⟩
  exact ⟨hn, fun s hs => hs, fun s buf hs => defaultWriteAll_kept (τ := Sink) hn hs, hw, fun _ _ => rfl,
    fun s buf hs => Reliable.loop (τ := Sink) hn hw hs⟩

section
variable {c : Cfg} {σ : Type}

theorem OutgoingRequest.write_def [Writer σ] (o : OutgoingRequest c σ) (buf : Bytes) : write o buf = o.writeImpl buf := rfl
theorem OutgoingRequest.flush_def [Writer σ] (o : OutgoingRequest c σ) : flush o = o.flushImpl := rfl

/-- Calls on a request with a body are calls on its body. -/
theorem perform_withBody [Writer σ] (b : OutgoingBody c σ) (cs : List WCall) :
    perform (OutgoingRequest.WithBody b) cs = ((perform b cs).1, .WithBody (perform b cs).2) := by
  induction cs generalizing b with
  | nil => rfl
  | cons cl cs ih =>
    cases cl with
    | write buf =>
      rw [perform, perform]
      rw [show FiniteWriter.write (OutgoingRequest.WithBody b) buf =
        ((b.writeImpl buf).1, .WithBody (b.writeImpl buf).2) from rfl]
      rw [show FiniteWriter.write b buf = b.writeImpl buf from rfl]
      rcases b.writeImpl buf with ⟨_ | k, b'⟩
      · rfl
      · dsimp only
        by_cases hk : k = buf.length
        · rw [if_pos hk, if_pos hk]; exact ih b'
        · rw [if_neg hk, if_neg hk]
    | flush =>
      rw [perform, perform]
      rw [show FiniteWriter.flush (OutgoingRequest.WithBody b) = ((b.flushImpl).1, .WithBody (b.flushImpl).2) from rfl]
      rw [show FiniteWriter.flush b = b.flushImpl from rfl]
      rcases b.flushImpl with ⟨_ | k, b'⟩
      · rfl
      · exact ih b'

/-- On a request without body only flushes succeed. -/
theorem perform_noBody [Writer σ] (s : σ) (cs : List WCall) :
    (perform (OutgoingRequest.NoBody (c := c) s) cs).2 = .NoBody s ∧
      ((perform (OutgoingRequest.NoBody (c := c) s) cs).1 = true ↔ written cs = []) := by
  induction cs with
  | nil => exact ⟨rfl, by simp [perform, written]⟩
  | cons cl cs ih =>
    cases cl with
    | write buf =>
      rw [perform, show FiniteWriter.write (OutgoingRequest.NoBody (c := c) s) buf = (.error (noBodyErr c), .NoBody s) from rfl]
      exact ⟨rfl, by simp [written]⟩
    | flush =>
      rw [perform, show FiniteWriter.flush (OutgoingRequest.NoBody (c := c) s) = (.ok (), .NoBody s) from rfl]
      exact ih

/-- Sending a whole request: what is on the wire when the response is about to be read. -/
theorem sent_request [LawfulWriter σ] {o o' : OutgoingRequest c σ} {cs : List WCall} {s' : σ}
    (hlen : ∀ buf ∈ written cs, buf.length < 2 ^ 64) (hp : perform o cs = (true, o')) (hc : o'.complete = .ok s') :
    wire s' = sent s' ∧
    (∀ s, o = .NoBody s → sent s' = sent s ∧ written cs = []) ∧
    (∀ b, o = .WithBody b → ∃ chs, ChunksFor chs (written cs) ∧
      sent s' = sent b.socket ++ chunkedBytes chs b!"0" ++ b!"\r\n") := by
  cases o with
  | NoBody s =>
    have h := perform_noBody (c := c) s cs
    rw [hp] at h
    obtain ⟨h1, h2⟩ := h
    dsimp only at h1 h2
    subst h1
    unfold OutgoingRequest.complete at hc
    dsimp only at hc
    rcases hf : flush s with ⟨_ | _, s1⟩
    · rw [hf] at hc; simp at hc
    · rw [hf] at hc
      simp only [Except.ok.injEq] at hc
      subst hc
      have h3 := LawfulWriter.flush_sent s
      rw [hf] at h3
      refine ⟨LawfulWriter.flush_ok_wire hf, ?_, by simp⟩
      rintro t ht
      simp only [OutgoingRequest.NoBody.injEq] at ht
      subst ht
      exact ⟨h3, h2.1 rfl⟩
  | WithBody b =>
    rw [perform_withBody] at hp
    simp only [Prod.mk.injEq] at hp
    obtain ⟨h1, h2⟩ := hp
    obtain ⟨chs, g1, g2⟩ := chunksFor (written cs) hlen
    have hperf : perform b cs = (true, (perform b cs).2) := Prod.ext h1 rfl
    obtain ⟨_, p, _, h3, h4⟩ := OutgoingBody.perform_sent hperf
    rw [← h2] at hc
    obtain ⟨h5, h6⟩ := OutgoingBody.complete_ok hc
    refine ⟨h6, by simp, ?_⟩
    rintro b' hb'
    simp only [OutgoingRequest.WithBody.injEq] at hb'
    subst hb'
    refine ⟨chs, g1, ?_⟩
    rw [h5, h3, h4 rfl, g2]; simp [chunkedBytes]

end

end HttpIo
