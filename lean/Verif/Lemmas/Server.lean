import Verif.Lemmas.Errors
import Verif.Lemmas.ReadKept
import Verif.Lemmas.Reliable
import Verif.Props.Io
import Verif.Props.Message
import Verif.Spec.Server

/-! The server, case by case. -/

namespace HttpIo
open Spec

section
variable [CaseMap] {c : Cfg} {η σ ρ ε : Type} [LawfulReader σ]

theorem request_under {s s' : σ} {r : HttpRequest c σ} (h : HttpRequest.deserialize c s = (.ok r, s')) :
    r.body.under = some s' ∧ ∃ enc len, r.body = HttpBody.new c enc len s' := by
  unfold HttpRequest.deserialize at h
  rcases hp : parseHead c parseRequestLine s with ⟨⟨⟨_, _, _⟩, _, enc, n⟩ | _ | _, s1⟩ <;> rw [hp] at h <;>
    simp only [Prod.mk.injEq, Res.ok.injEq, reduceCtorEq, false_and] at h
  rw [← h.1, ← h.2]
  refine ⟨?_, enc, n, rfl⟩
  dsimp only
  unfold HttpBody.new
  by_cases he : enc = some b!"chunked"
  · rw [if_pos he]; rfl
  · rw [if_neg he]; cases n <;> rfl

theorem serveOneInner_err (h : Handler c η σ ρ ε) (errText : Err → Bytes) {s : σ} (self : η) {e : Err} {s1 : BufReader c σ}
    (hp : HttpRequest.deserialize c (BufReader.new c s) = (.err e, s1)) :
    h.serveOneInner errText s self = (.err (ServerResponse.ofError c errText e), s1.inner, self) := by
  unfold Handler.serveOneInner
  rw [hp]

theorem serveOneInner_panic (h : Handler c η σ ρ ε) (errText : Err → Bytes) {s : σ} (self : η) {s1 : BufReader c σ}
    (hp : HttpRequest.deserialize c (BufReader.new c s) = (.panic, s1)) :
    h.serveOneInner errText s self = (.panic, s1.inner, self) := by
  unfold Handler.serveOneInner
  rw [hp]

theorem serveOneInner_refused (h : Handler c η σ ρ ε) (errText : Err → Bytes) {s : σ} (self : η)
    {r : HttpRequest c (BufReader c σ)} {s1 : BufReader c σ}
    (hp : HttpRequest.deserialize c (BufReader.new c s) = (.ok r, s1)) (hr : ¬ Acceptable r) :
    h.serveOneInner errText s self =
      (.err (ServerResponse.fromString c .LengthRequired b!"length required"), s1.inner, self) := by
  unfold Acceptable at hr
  rw [Classical.not_imp] at hr
  obtain ⟨hm, hf⟩ := hr
  have hf : framing r.body = .tilClose := Classical.not_not.1 hf
  have hl := (C32_require_length r.body).1.2 hf
  have hu : r.body.released s1 = s1.inner := by
    unfold HttpBody.released; rw [(request_under hp).1]; rfl
  unfold Handler.serveOneInner
  rw [hp]
  dsimp only
  rcases hm with hm | hm <;> rw [hm] <;> dsimp only <;> rw [hl, hu] <;> rfl

theorem serveOneInner_handled (h : Handler c η σ ρ ε) (errText : Err → Bytes) {s : σ} (self : η)
    {r : HttpRequest c (BufReader c σ)} {s1 : BufReader c σ}
    (hp : HttpRequest.deserialize c (BufReader.new c s) = (.ok r, s1)) (hr : Acceptable r) :
    h.serveOneInner errText s self =
      ((handled h r.method r.uri r.body self).1.mapErr h.into,
        (handled h r.method r.uri r.body self).2.1.released s1, (handled h r.method r.uri r.body self).2.2) := by
  have hl : r.method = .Put ∨ r.method = .Post → r.body.requireLength = .ok () := by
    intro hm
    have hf := hr hm
    rw [(C32_require_length r.body).2]
    cases hb : framing r.body with
    | chunked => exact .inl rfl
    | limited n => exact .inr ⟨n, rfl⟩
    | tilClose => exact absurd hb hf
  unfold Handler.serveOneInner
  rw [hp]
  dsimp only
  cases hm : r.method with
  | Put => dsimp only; rw [hl (.inl hm)]; rfl
  | Post => dsimp only; rw [hl (.inr hm)]; rfl
  | _ => rfl

theorem handled_spied (h : Handler c η σ ρ ε) (m : HttpMethod) (uri : Bytes) (body : HttpBody c (BufReader c σ)) (self : η)
    (log : List (HttpMethod × Bytes)) :
    handled (spied h) m uri body (self, log) =
      ((handled h m uri body self).1, (handled h m uri body self).2.1, (handled h m uri body self).2.2, log ++ [(m, uri)]) := by
  cases m <;> rfl

/-- Every way `serve_one_inner` can go. -/
theorem inner_cases (h : Handler c η σ ρ ε) (errText : Err → Bytes) (s : σ) (self : η) :
    (∃ e s1, HttpRequest.deserialize c (BufReader.new c s) = (.err e, s1)) ∨
    (∃ s1, HttpRequest.deserialize c (BufReader.new c s) = (.panic, s1)) ∨
    (∃ r s1, HttpRequest.deserialize c (BufReader.new c s) = (.ok r, s1) ∧ Acceptable r) ∨
    (∃ r s1, HttpRequest.deserialize c (BufReader.new c s) = (.ok r, s1) ∧ ¬ Acceptable r) := by
  rcases hp : HttpRequest.deserialize c (BufReader.new c s) with ⟨r | e | _, s1⟩
  · by_cases hr : Acceptable r
    · exact .inr (.inr (.inl ⟨r, s1, rfl, hr⟩))
    · exact .inr (.inr (.inr ⟨r, s1, rfl, hr⟩))
  · exact .inl ⟨e, s1, rfl⟩
  · exact .inr (.inl ⟨s1, rfl⟩)

/-- A predicate kept by reading still holds when the response is about to be written. -/
theorem inner_kept [ZeroReader σ] {P : σ → Prop} (hk : ReadKept P) (h : Handler c η σ ρ ε) (ho : OnlyReads h)
    (errText : Err → Bytes) {s : σ} (self : η) (hs : P s) : P (h.serveOneInner errText s self).2.1 := by
  have hb : ReadKept fun r : BufReader c σ => P r.inner := hk.bufReader
  have h1 := hb.request (c := c) (s := BufReader.new c s) hs
  rcases inner_cases h errText s self with ⟨e, s1, hp⟩ | ⟨s1, hp⟩ | ⟨r, s1, hp, hr⟩ | ⟨r, s1, hp, hr⟩ <;> rw [hp] at h1
  · rw [serveOneInner_err h errText self hp]; exact h1
  · rw [serveOneInner_panic h errText self hp]; exact h1
  · rw [serveOneInner_handled h errText self hp hr]
    dsimp only
    obtain ⟨hu, enc, n, hbody⟩ := request_under hp
    have hall : r.body.All (fun r : BufReader c σ => P r.inner) := by rw [hbody]; exact HttpBody.All.new h1
    have hrel : ∀ b : HttpBody c (BufReader c σ), b.All (fun r : BufReader c σ => P r.inner) → P (b.released s1) := by
      intro b hb
      unfold HttpBody.released
      cases hu : b.under with
      | none => exact h1
      | some s2 => exact hb.under hu
    apply hrel
    cases hm : r.method with
    | Put => obtain ⟨sizes, h2⟩ := ho.put r.uri r.body self; dsimp only [handled]; rw [h2]; exact hb.body.calls hall
    | Post => obtain ⟨sizes, h2⟩ := ho.post r.uri r.body self; dsimp only [handled]; rw [h2]; exact hb.body.calls hall
    | _ => exact hall
  · rw [serveOneInner_refused h errText self hp hr]; exact h1

end

section
variable {c : Cfg} {σ ρ : Type} [LawfulReader ρ] [ZeroReader ρ] [LawfulWriter σ]

/-- What `respond` writes. -/
theorem respond_sent (r : ServerResponse c ρ) (s : σ) :
    ((respond c r s).1 = .ok () ∧ ∃ bs t', Delivers c (trace r.body) bs t' ∧ Ended c t' ∧
        sent (respond c r s).2.2 = sent s ++ r.headPieces.flatten ++ bs) ∨
    (∃ e, (respond c r s).1 = .error e ∧ ∃ p bs t', Delivers c (trace r.body) bs t' ∧
        p <+: r.headPieces.flatten ++ bs ∧ sent (respond c r s).2.2 = sent s ++ p) := by
  unfold respond
  rcases hs : r.serialize s with ⟨e | _, s1⟩
  · dsimp only
    have hs' := hs
    unfold HttpResponse.serialize at hs'
    obtain ⟨_, p, h1, h2, _⟩ := writePieces_sent hs'
    exact .inr ⟨_, rfl, p, [], _, .nil _, by rwa [List.append_nil], h2⟩
  · dsimp only
    have h1 : sent s1 = sent s ++ r.headPieces.flatten := by
      have hs' := hs
      unfold HttpResponse.serialize at hs'
      obtain ⟨_, p, _, h2, h3⟩ := writePieces_sent hs'
      rw [h2, h3 rfl]
    rcases hc : copy c r.body s1 0 with ⟨e | k, b, s2⟩
    · dsimp only
      obtain ⟨p, bs, t', h2, h3, h4⟩ := C33_copy_err c _ _ _ _ _ _ hc
      refine .inr ⟨_, rfl, _ ++ p, bs, t', h2, (List.prefix_append_right_inj _).2 h3, ?_⟩
      rw [h4, h1, List.append_assoc]
    · dsimp only
      obtain ⟨bs, t', h2, h3, h4, _, _⟩ := C33_copy_ok c _ _ _ _ _ _ hc
      exact .inl ⟨by first | rfl | simp, bs, t', h2, h3, by rw [h4, h1]⟩

theorem respond_ok {P : σ → Prop} (hr : Reliable c P) (r : ServerResponse c ρ) {s : σ} (hs : P s) {bs : Bytes} {t' : List Ev}
    (hd : Delivers c (trace r.body) bs t') (he : Ended c t') :
    ∃ b s', respond c r s = (.ok (), b, s') ∧ P s' := by
  obtain ⟨s1, h1, h2⟩ := hr.writePieces_ok (ps := r.headPieces) hs
  obtain ⟨k, b, s2, h3, h4⟩ := hr.copy_ok (r := r.body) (n := 0) h2 hd he
  refine ⟨b, s2, ?_, h4⟩
  unfold respond HttpResponse.serialize
  rw [h1]
  dsimp only
  rw [h3]

end

end HttpIo
