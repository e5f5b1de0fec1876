import Verif.Lemmas.Reads
import Verif.Props.Message
import Verif.Lemmas.Case

/-! C125: with which calls a message is read from the transport. -/

namespace HttpIo
open Spec

section
variable {c : Cfg} {σ : Type} [LawfulReader σ]

theorem metered_reads1 : Reads1 fun (a : Metered σ) k b => b.asked = a.asked ++ List.replicate k 1 where
  refl s := by simp
  trans {a b d j k} h1 h2 := by rw [h2, h1, List.append_assoc, List.replicate_append_replicate]
  step {s s' r} h _ := by
    replace h : ((read s.inner 1).1, (⟨(read s.inner 1).2, s.asked ++ [1]⟩ : Metered σ)) = (r, s') := h
    simp only [Prod.mk.injEq] at h
    rw [← h.2]; rfl

theorem metered_unbuffered (hs : c.std = false) :
    Reads1 fun (a : BufReader c (Metered σ)) k b => b.inner.asked = a.inner.asked ++ List.replicate k 1 where
  refl s := by simp
  trans {a b d j k} h1 h2 := by rw [h2, h1, List.append_assoc, List.replicate_append_replicate]
  step {s s' r} h hr := by
    rw [BufReader.read_def] at h
    unfold BufReader.readImpl at h
    rw [if_neg (by simp [hs])] at h
    simp only [Prod.mk.injEq] at h
    rw [← h.2]
    exact metered_reads1.step (s := s.inner) (r := (read s.inner 1).1) rfl (by rw [h.1]; exact hr)

/-- A `std` reader `j` bytes into what its first read gave. -/
def bufAt (s s1 : σ) (bs : Bytes) : Nat → BufReader c σ
  | 0 => ⟨s, []⟩
  | j + 1 => ⟨s1, bs.drop (j + 1)⟩

theorem buffered_reads1 (hs : c.std = true) {s s1 : σ} {bs : Bytes} (hr : read s 8192 = (.ok bs, s1)) :
    Reads1 fun (a : BufReader c σ) k b => ∀ j, a = bufAt s s1 bs j → j + k ≤ bs.length → b = bufAt s s1 bs (j + k) where
  refl a j h _ := h
  trans {a b d i k} h1 h2 j h hl := by
    rw [← Nat.add_assoc]
    exact h2 (j + i) (h1 j h (by omega)) (by omega)
  step {a b r} h hne j hj hl := by
    rw [BufReader.read_def, hj] at h
    cases j with
    | zero =>
      replace h : BufReader.readImpl (⟨s, []⟩ : BufReader c σ) 1 = (r, b) := h
      unfold BufReader.readImpl at h
      rw [if_pos hs, if_pos (show List.isEmpty ([] : Bytes) = true from rfl), if_neg (by decide)] at h
      dsimp only [bufCap] at h
      rw [hr] at h
      simp only [Prod.mk.injEq] at h
      rw [← h.2]; rfl
    | succ j =>
      replace h : BufReader.readImpl (⟨s1, bs.drop (j + 1)⟩ : BufReader c σ) 1 = (r, b) := h
      unfold BufReader.readImpl at h
      rw [if_pos hs, if_neg (by simp; omega)] at h
      simp only [Prod.mk.injEq] at h
      rw [← h.2]
      show _ = (⟨s1, bs.drop (j + 1 + 1)⟩ : BufReader c σ)
      rw [List.drop_drop]

variable [CaseMap]

theorem response_parseHead {s s' : σ} {r : HttpResponse c (BufReader c σ)} (h : HttpResponse.deserialize c s = (.ok r, s')) :
    ∃ x, parseHead c parseStatusLine s = (.ok x, s') := by
  unfold HttpResponse.deserialize at h
  rcases hp : parseHead c parseStatusLine s with ⟨⟨⟨v, st⟩, hs, e, l⟩ | e | _, s1⟩ <;> rw [hp] at h <;>
    simp only [Prod.mk.injEq, reduceCtorEq, false_and] at h
  rw [← h.2]; exact ⟨_, rfl⟩

theorem request_parseHead {s s' : σ} {r : HttpRequest c σ} (h : HttpRequest.deserialize c s = (.ok r, s')) :
    ∃ x, parseHead c parseRequestLine s = (.ok x, s') := by
  unfold HttpRequest.deserialize at h
  rcases hp : parseHead c parseRequestLine s with ⟨⟨⟨m, u, v⟩, hs, e, l⟩ | e | _, s1⟩ <;> rw [hp] at h <;>
    simp only [Prod.mk.injEq, reduceCtorEq, false_and] at h
  rw [← h.2]; exact ⟨_, rfl⟩

/-- A response head is read from the transport itself, with one call for each byte, each for one byte, in either build and
whatever the transport has at hand. -/
theorem C125_response_partial (s : σ) (status : HttpStatus) (headers : HttpHeaders) (rest : List Ev)
    (hh : SendableHeaders headers.entries) (hl : LengthOk headers.entries)
    (ht : trace s = (responseHead status.display headers.entries).map .byte ++ rest) :
    ∃ r s', HttpResponse.deserialize c (⟨s, []⟩ : Metered σ) = (.ok r, s') ∧
      s'.asked = List.replicate (responseHead status.display headers.entries).length 1 := by
  obtain ⟨r, s', h1, _, _, _, _, _, _, h2⟩ := C19_roundtrip c (⟨s, []⟩ : Metered σ) status headers rest hh hl (by
    show Delivers c (trace s) _ _
    rw [ht]; exact delivers_map c _ _)
  obtain ⟨x, h3⟩ := response_parseHead h1
  obtain ⟨k, h4, h5⟩ := metered_reads1.parseHead h3
  refine ⟨r, s', h1, ?_⟩
  rw [h4]
  rw [h2, show trace (⟨s, []⟩ : Metered σ) = trace s from rfl, ht, List.length_append, List.length_map] at h5
  rw [show k = (responseHead status.display headers.entries).length by omega]; rfl

/-- So no response is read with one call, and none with fewer than thirteen. -/
theorem C125_response_false (s : σ) (status : HttpStatus) (headers : HttpHeaders) (rest : List Ev)
    (r : HttpResponse c (BufReader c (Metered σ))) (hh : SendableHeaders headers.entries) (hl : LengthOk headers.entries)
    (ht : trace s = (responseHead status.display headers.entries).map .byte ++ rest) (m' : Metered σ)
    (hd : HttpResponse.deserialize c (⟨s, []⟩ : Metered σ) = (.ok r, m')) : ¬ m'.asked.length < 13 := by
  obtain ⟨r1, s1, h1, h2⟩ := C125_response_partial (c := c) s status headers rest hh hl ht
  rw [hd] at h1
  simp only [Prod.mk.injEq] at h1
  rw [h1.2, h2, List.length_replicate]
  unfold responseHead
  rw [utf8_http11]
  simp
  omega

/-- Whatever the head was, if it is accepted: the number of calls is that of the bytes consumed (and of the interruptions that
were met). -/
theorem C125_response_any (s : σ) (r : HttpResponse c (BufReader c (Metered σ))) (m' : Metered σ)
    (hd : HttpResponse.deserialize c (⟨s, []⟩ : Metered σ) = (.ok r, m')) :
    ∃ k, m'.asked = List.replicate k 1 ∧ (trace s).length = (trace m'.inner).length + k := by
  obtain ⟨x, h3⟩ := response_parseHead hd
  exact metered_reads1.parseHead h3

/-- Without `std` the same is true of requests. -/
theorem C125_request_unbuffered_partial (hs : c.std = false) (s : σ) (r : HttpRequest c (BufReader c (Metered σ)))
    (w' : BufReader c (Metered σ)) (hd : HttpRequest.deserialize c (BufReader.new c (⟨s, []⟩ : Metered σ)) = (.ok r, w')) :
    ∃ k, w'.inner.asked = List.replicate k 1 ∧ (trace s).length = (trace w').length + k := by
  obtain ⟨x, h3⟩ := request_parseHead hd
  obtain ⟨k, h4, h5⟩ := (metered_unbuffered hs).parseHead h3
  rw [BufReader.trace_new] at h5
  exact ⟨k, h4, h5⟩

/-- With `std` a request head is read with as few calls as possible: if the transport gives the whole head in answer to the
first call, there is no second. What came with it is kept for the body. -/
theorem C125_request (hs : c.std = true) (s s1 : σ) (m : HttpMethod) (target : Bytes) (headers : HttpHeaders) (rest : Bytes)
    (ht : SendableTarget target) (hh : SendableHeaders headers.entries) (hl : LengthOk headers.entries)
    (hr : read s 8192 = (.ok (requestHead m target headers.entries ++ rest), s1)) :
    ∃ r w', HttpRequest.deserialize c (BufReader.new c (⟨s, []⟩ : Metered σ)) = (.ok r, w') ∧
      w'.inner = ⟨s1, [8192]⟩ ∧ w'.buf = rest := by
  have hne : requestHead m target headers.entries ≠ [] := by unfold requestHead; simp
  have htr := trace_of_data (show 0 < 8192 by decide) (by simp [hne]) hr
  obtain ⟨r, w', h1, _, _, _, _, _, _, h2⟩ := C18_roundtrip c (BufReader.new c (⟨s, []⟩ : Metered σ)) m target headers
    (rest.map .byte ++ trace s1) ht hh hl (by
      rw [BufReader.trace_new]
      show Delivers c (trace s) _ _
      rw [htr, List.map_append, List.append_assoc]; exact delivers_map c _ _)
  obtain ⟨x, h3⟩ := request_parseHead h1
  have hr' : read (⟨s, []⟩ : Metered σ) 8192 = (.ok (requestHead m target headers.entries ++ rest), ⟨s1, [8192]⟩) := by
    show ((read s 8192).1, (⟨(read s 8192).2, [] ++ [8192]⟩ : Metered σ)) = _
    rw [hr]; rfl
  obtain ⟨k, h4, h5⟩ := (buffered_reads1 hs hr').parseHead h3
  rw [h2, BufReader.trace_new, show trace (⟨s, []⟩ : Metered σ) = trace s from rfl, htr] at h5
  simp only [List.length_append, List.length_map] at h5
  have hk : k = (requestHead m target headers.entries).length := by omega
  have h6 := h4 0 rfl (by rw [hk]; simp)
  refine ⟨r, w', h1, ?_⟩
  rw [h6, Nat.zero_add, hk]
  cases hn : (requestHead m target headers.entries).length with
  | zero => exact absurd (List.length_eq_zero_iff.1 hn) hne
  | succ j =>
    refine ⟨rfl, ?_⟩
    show List.drop (j + 1) _ = rest
    rw [← hn, List.drop_left]

end

/-! ### Concrete cases -/

/-- A response that is at hand whole: nineteen calls for the nineteen bytes of its head, with `std` too. -/
example : let _ := asciiCase
    ∀ c : Cfg, (HttpResponse.deserialize c (⟨⟨[.data b!"HTTP/1.1 200 OK\r\n\r\nhello"]⟩, []⟩ : Metered Wire)).2.asked =
      List.replicate 19 1 := by
  intro _ c; rcases c with ⟨_ | _⟩ <;> decide +kernel

/-- A request that is at hand whole: one call with `std`; without, one for each byte. -/
example : let _ := asciiCase
    (HttpRequest.deserialize ⟨true⟩ (BufReader.new ⟨true⟩ (⟨⟨[.data b!"PUT / HTTP/1.1\r\n\r\nab"]⟩, []⟩ : Metered Wire))).2.inner.asked = [8192] ∧
    (HttpRequest.deserialize ⟨false⟩ (BufReader.new ⟨false⟩ (⟨⟨[.data b!"PUT / HTTP/1.1\r\n\r\nab"]⟩, []⟩ : Metered Wire))).2.inner.asked =
      List.replicate 18 1 := by
  intro _; exact ⟨by decide +kernel, by decide +kernel⟩

/-- The hypotheses of `C125_request` and of `C125_response_partial`. -/
example : let _ := asciiCase
    SendableTarget b!"/x" ∧ SendableHeaders [] ∧ LengthOk [] ∧
    read (⟨[.data (requestHead .Get b!"/x" [] ++ b!"rest")]⟩ : Wire) 8192 = (.ok (requestHead .Get b!"/x" [] ++ b!"rest"), ⟨[]⟩) ∧
    trace (⟨[.data (responseHead (HttpStatus.OK).display [] ++ b!"rest")]⟩ : Wire) =
      (responseHead (HttpStatus.OK).display []).map .byte ++ b!"rest".map .byte := by
  intro _
  refine ⟨⟨by decide, ?_, by decide, by decide, by unfold HasCrLf; decide⟩, ⟨.nil, by simp, by simp⟩, ?_, by decide +kernel, by decide +kernel⟩
  · exact isText_ascii (by decide)
  · intro v hv; simp at hv

end HttpIo
