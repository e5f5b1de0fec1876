import Verif.Props.Depends
import Verif.Props.Length
import Verif.Props.Equality

/-! C171: of a response only the code, the headers and the body matter. -/

namespace HttpIo
open Spec
variable [CaseMap]

section
variable {σ τ : Type} [LawfulReader σ] [ZeroReader σ] [LawfulReader τ] [ZeroReader τ]

omit [ZeroReader σ] in
theorem parseHead_made {α : Type} {c : Cfg} {f : Bytes → Res α} {s s' : σ} {a : α} {hs : HttpHeaders} {enc : Option Bytes}
    {n : Option Nat} (h : parseHead c f s = (.ok (a, hs, enc, n), s')) : Made hs := by
  unfold parseHead at h
  rcases h1 : expectNext c s with ⟨e | line, s1⟩ <;> rw [h1] at h
  · simp at h
  · rcases h2 : f line with x | e | _ <;> simp only [h2] at h
    · rcases h3 : HttpHeaders.deserialize c s1 with ⟨k | e | _, s2⟩ <;> simp only [h3] at h
      · cases hc : contentLengthOf k with
        | ok m =>
          rw [hc] at h
          simp only [Prod.mk.injEq, Res.ok.injEq] at h
          obtain ⟨⟨_, rfl, _, _⟩, _⟩ := h
          exact .received h3
        | err e => rw [hc] at h; simp at h
        | panic => rw [hc] at h; simp at h
      · simp at h
      · simp at h
    · simp at h
    · simp at h

theorem response_made {c : Cfg} {s s' : σ} {r : HttpResponse c (BufReader c σ)}
    (h : HttpResponse.deserialize c s = (.ok r, s')) : Made r.headers := by
  unfold HttpResponse.deserialize at h
  rcases h1 : parseHead c parseStatusLine s with ⟨⟨⟨v, st⟩, hs, enc, n⟩ | e | _, s1⟩ <;> rw [h1] at h
  · have := parseHead_made h1
    simp only [Prod.mk.injEq, Res.ok.injEq] at h
    obtain ⟨rfl, rfl⟩ := h
    exact this
  · simp at h
  · simp at h

theorem response_status {c : Cfg} {s s' : σ} {r : HttpResponse c (BufReader c σ)}
    (h : HttpResponse.deserialize c s = (.ok r, s')) : r.status = HttpStatus.fromCode r.status.toCode := by
  unfold HttpResponse.deserialize at h
  rcases h1 : parseHead c parseStatusLine s with ⟨⟨⟨v, st⟩, hs, enc, n⟩ | e | _, s1⟩ <;> rw [h1] at h
  · simp only [Prod.mk.injEq, Res.ok.injEq] at h
    obtain ⟨rfl, rfl⟩ := h
    obtain ⟨line, hist, k1, k2, k3⟩ := head_sound h1
    have hl : RawLine line := by obtain ⟨_, hl, _⟩ := k2; exact hl
    obtain ⟨code, k4, k5⟩ := (statusLine_ok_iff ((validUtf8_iff _).2 hl.2.2) _ _).1 k1
    dsimp only
    rw [k5, C01_code_lossless]
  · simp at h
  · simp at h

/-! ### C171 -/

/-- Two responses whose status lines have the same code, whose header lines answer every lookup alike and which are
followed by the same bytes and failures, are both accepted: with equal statuses, equal header sets and the same body.
The version is recorded and otherwise changes nothing, whatever it is; what follows the code changes nothing at all. -/
theorem C171_response (c : Cfg) (s : σ) (u : τ) (line line' : Bytes) (v v' : HttpVersion) (code : Nat)
    (hist hist' : List (Bytes × Bytes)) (t : List Ev) (hl : StatusLine line v.major v.minor code)
    (hl' : StatusLine line' v'.major v'.minor code) (hd : HeadOf c (trace s) line hist t)
    (hd' : HeadOf c (trace u) line' hist' t)
    (hh : ∀ name w, LastWith (fun k => CaseMap.lower k = CaseMap.lower name) hist w ↔
      LastWith (fun k => CaseMap.lower k = CaseMap.lower name) hist' w) :
    ∃ r s' r' u', HttpResponse.deserialize c s = (.ok r, s') ∧ HttpResponse.deserialize c u = (.ok r', u') ∧
      r.version = v ∧ r'.version = v' ∧ r.status.toCode.toNat = code ∧ r.status = r'.status ∧ r.headers = r'.headers ∧
      SameBody r.body r'.body := by
  obtain ⟨r, s', h1, h2, h3, h4, h5⟩ := C69_response_complete c s line v code hist t hl hd
  obtain ⟨r', u', k1, k2, k3, k4, k5⟩ := C69_response_complete c u line' v' code hist' t hl' hd'
  have hhs : r.headers = r'.headers :=
    (C134_headers _ _ (response_made h1) (response_made k1)).2 fun name => answers_same h5 k5 name (hh name)
  have hst : r.status = r'.status := by
    have e : r.status.toCode = r'.status.toCode := UInt32.toNat_inj.1 (h4.trans k4.symm)
    rw [response_status h1, response_status k1, e]
  refine ⟨r, s', r', u', h1, k1, h3, k3, h4, hst, hhs, ?_⟩
  obtain ⟨n, a1, a2⟩ := response_body h1
  obtain ⟨n', b1, b2⟩ := response_body k1
  rw [hhs, b1] at a1
  obtain rfl := Res.ok.inj a1
  rw [a2, b2, hhs]
  refine sameBody_new ?_ _ _
  rw [BufReader.trace_new, BufReader.trace_new, h2, k2]

end

/-! Not vacuous: the same response in two versions, with different reasons. -/

example (c : Cfg) : letI : CaseMap := asciiCase
    (match HttpResponse.deserialize c (Wire.mk [.data b!"HTTP/1.1 404 Not Found\r\nA: b\r\n\r\nxyz"]),
      HttpResponse.deserialize c (Wire.mk [.data b!"HTTP/9.7 404 all is well\r\na: b\r\n\r\n", .data b!"xyz"]) with
    | (.ok r, _), (.ok r', _) => decide (r.status = r'.status ∧ r.headers = r'.headers ∧ r.status = .NotFound ∧
        r'.version = ⟨9, 7⟩)
    | _, _ => false) = true := by rcases c with ⟨_ | _⟩ <;> decide +kernel

end HttpIo
