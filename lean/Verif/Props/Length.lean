import Verif.Props.Body
import Verif.Props.Depends

/-! C89: what `content_length` of a body tells. -/

namespace HttpIo

open Spec Reader LawfulReader

section
variable [CaseMap] {c : Cfg} {σ : Type} [LawfulReader σ]

theorem contentLengthOf_get {h : HttpHeaders} {n : Option Nat} (hn : contentLengthOf h = .ok n) (k : Nat) :
    n = some k ↔ ∃ v, h.get b!"content-length" = some v ∧ LengthText v k := by
  have hl : CaseMap.lower b!"Content-Length" = CaseMap.lower b!"content-length" := by
    rw [lower_contentLength]; exact (lower_const b!"content-length").symm
  have hg : h.get b!"Content-Length" = h.get b!"content-length" := by unfold HttpHeaders.get; rw [hl]
  unfold contentLengthOf parseU64 Res.ofOption at hn
  rw [hg] at hn
  cases hv : h.get b!"content-length" with
  | none =>
    rw [hv] at hn
    simp only [Res.ok.injEq] at hn
    subst hn; simp
  | some v =>
    rw [hv] at hn
    dsimp only at hn
    cases hf : fromStrRadix 10 u64Max v with
    | none => rw [hf] at hn; simp at hn
    | some m =>
      rw [hf] at hn
      simp only [Res.ok.injEq] at hn
      subst hn
      simp only [Option.some.injEq, exists_eq_left']
      rw [← lengthText_iff, hf, Option.some.injEq]

theorem contentLength_new (enc : Option Bytes) (n : Option Nat) {ρ : Type} (s : ρ) : (HttpBody.new c enc n s).contentLength = n := by
  unfold HttpBody.new
  split
  · rfl
  · cases n <;> rfl

/-- Right after parsing, `content_length` is the number in the content-length header, if there is one, whatever delimits
the body. -/
theorem C89_request (s s' : σ) (r : HttpRequest c σ) (h : HttpRequest.deserialize c s = (.ok r, s')) (n : Nat) :
    r.body.contentLength = some n ↔ ∃ v, r.headers.get b!"content-length" = some v ∧ LengthText v n := by
  obtain ⟨k, h1, h2⟩ := request_body h
  rw [h2, contentLength_new]
  exact contentLengthOf_get h1 n

theorem response_body {s s' : σ} {r : HttpResponse c (BufReader c σ)} (h : HttpResponse.deserialize c s = (.ok r, s')) :
    ∃ n, contentLengthOf r.headers = .ok n ∧
      r.body = HttpBody.new c (r.headers.get b!"Transfer-Encoding") n (BufReader.new c s') := by
  unfold HttpResponse.deserialize at h
  rcases h1 : parseHead c parseStatusLine s with ⟨⟨⟨v, st⟩, hs, enc, n⟩ | e | _, s1⟩ <;> rw [h1] at h
  · obtain ⟨_, h3, h4⟩ := parseHead_framing h1
    simp only [Prod.mk.injEq, Res.ok.injEq] at h
    obtain ⟨rfl, rfl⟩ := h
    exact ⟨n, h4, by rw [h3]⟩
  · simp at h
  · simp at h

/-- The same for responses. -/
theorem C89_response (s s' : σ) (r : HttpResponse c (BufReader c σ)) (h : HttpResponse.deserialize c s = (.ok r, s')) (n : Nat) :
    r.body.contentLength = some n ↔ ∃ v, r.headers.get b!"content-length" = some v ∧ LengthText v n := by
  obtain ⟨k, h1, h2⟩ := response_body h
  rw [h2, contentLength_new]
  exact contentLengthOf_get h1 n

variable [ZeroReader σ]

/-- `content_length` is what is left of a body that is not chunked: after any reads, the number at the start less what was
received. Missing for the full property: chunked bodies with a content-length header. -/
theorem C89_left_partial (b : HttpBody c σ) (hf : framing b ≠ .chunked) (n : Nat) (hn : b.contentLength = some n)
    (sizes : List Nat) (hp : Positive sizes) :
    (received (calls b sizes).1).length ≤ n ∧
    (calls b sizes).2.contentLength = some (n - (received (calls b sizes).1).length) := by
  cases b with
  | Chunked b => simp [framing] at hf
  | ReadTilClose r => simp [HttpBody.contentLength] at hn
  | Limited t =>
    simp only [HttpBody.contentLength, Option.some.injEq] at hn
    have hb : (HttpBody.Limited t : HttpBody c σ) = HttpBody.new c none (some n) t.inner := by
      unfold HttpBody.new
      rw [if_neg (by simp), ← hn]
    rw [hb]
    obtain ⟨h1, h2, _⟩ := C29_exact c none (by simp) n t.inner sizes hp
    exact ⟨h1, h2⟩

theorem chunked_read_length (b : HttpChunkedBody c σ) (n : Nat) : (HttpChunkedBody.readImpl b n).2.contentLength = b.contentLength := by
  fun_induction HttpChunkedBody.readImpl b n <;> simp_all

/-- Of a chunked body it is the number in the header, which says nothing about the body, and it never changes. -/
theorem C89_chunked (b : HttpBody c σ) (hf : framing b = .chunked) (sizes : List Nat) :
    (calls b sizes).2.contentLength = b.contentLength ∧ framing (calls b sizes).2 = .chunked := by
  induction sizes generalizing b with
  | nil => exact ⟨rfl, hf⟩
  | cons n ns ih =>
    cases b with
    | Limited t => simp [framing] at hf
    | ReadTilClose r => simp [framing] at hf
    | Chunked b =>
      have hr : (read (HttpBody.Chunked b) n).2 = HttpBody.Chunked (HttpChunkedBody.readImpl b n).2 := rfl
      unfold calls
      dsimp only
      rw [hr]
      obtain ⟨h1, h2⟩ := ih (.Chunked (HttpChunkedBody.readImpl b n).2) rfl
      refine ⟨h1.trans ?_, h2⟩
      exact chunked_read_length b n

end

/-- So the property is false: of this response's body nothing is left, and `content_length` says there are five bytes. -/
theorem C89_left_false (c : Cfg) : let _ := asciiCase
    ∃ r s', HttpResponse.deserialize c (Wire.mk [.data b!"HTTP/1.1 200 OK\r\nContent-Length: 5\r\nTransfer-Encoding: chunked\r\n\r\n0\r\n\r\n"]) =
      (.ok r, s') ∧ Yields r.body [] ∧ r.body.contentLength = some 5 := by
  intro inst
  have h : ∀ b : Bool, (match HttpResponse.deserialize ⟨b⟩
      (Wire.mk [.data b!"HTTP/1.1 200 OK\r\nContent-Length: 5\r\nTransfer-Encoding: chunked\r\n\r\n0\r\n\r\n"]) with
    | (.ok r, _) => decide (trace r.body = [] ∧ r.body.contentLength = some 5)
    | _ => false) = true := by decide +kernel
  have h := h c.std
  rcases h1 : HttpResponse.deserialize c
      (Wire.mk [.data b!"HTTP/1.1 200 OK\r\nContent-Length: 5\r\nTransfer-Encoding: chunked\r\n\r\n0\r\n\r\n"]) with ⟨r | e | _, s'⟩ <;>
    rw [h1] at h
  · simp only [decide_eq_true_eq] at h
    exact ⟨r, s', rfl, yields_of_trace (by simpa using h.1), h.2⟩
  · simp at h
  · simp at h

/-- Witness for `C89_response`, `C89_left_partial`: a length of three, one byte read of it. -/
example : let _ := asciiCase
    (match HttpResponse.deserialize ⟨true⟩ (Wire.mk [.data b!"HTTP/1.1 200 OK\r\nContent-Length: 3\r\n\r\nabcd"]) with
    | (.ok r, _) => decide (r.body.contentLength = some 3 ∧ framing r.body = .limited 3 ∧
        (calls r.body [1]).2.contentLength = some 2)
    | _ => false) = true := by
  intro inst
  decide +kernel

/-- Witness for `C89_request`, `C89_chunked`. -/
example : let _ := asciiCase
    (match HttpRequest.deserialize ⟨false⟩
      (Wire.mk [.data b!"PUT / HTTP/1.1\r\nContent-Length: 7\r\nTransfer-Encoding: chunked\r\n\r\n2\r\nab\r\n0\r\n\r\n"]) with
    | (.ok r, _) => decide (framing r.body = .chunked ∧ (calls r.body [1, 4]).1 = [.ok b!"a", .ok b!"b"])
    | _ => false) = true := by
  intro inst
  decide +kernel

end HttpIo
