import Verif.Props.Head
import Verif.Props.Body
import Verif.Lemmas.Pipes

/-! C102: an upload that breaks off is never taken for a whole one. -/

namespace HttpIo
open Spec

theorem delivers_bytesOf {c : Cfg} {t t' : List Ev} {bs : Bytes} (h : Delivers c t bs t') :
    bytesOf t = bs ++ bytesOf t' := by
  induction h with
  | nil => rfl
  | byte b _ ih => simp [bytesOf, ih]
  | retry _ _ ih => simpa [bytesOf] using ih

theorem bytesOf_map (bs : Bytes) (t : List Ev) : bytesOf (bs.map .byte ++ t) = bs ++ bytesOf t := by
  induction bs with
  | nil => rfl
  | cons b bs ih => simp [bytesOf, ih]

theorem expectNextT_ok_inv {c : Cfg} {t t' : List Ev} {l : Bytes} (h : expectNextT c t = (.ok l, t')) :
    RawLine l ∧ Delivers c t (l ++ [13, 10]) t' := by
  have hs := expectNext_trace c (⟨t⟩ : Evs)
  rw [show trace (⟨t⟩ : Evs) = t from rfl, h] at hs
  rcases he : expectNext c (⟨t⟩ : Evs) with ⟨r, s'⟩
  rw [he] at hs
  simp only [Prod.mk.injEq] at hs
  obtain ⟨rfl, rfl⟩ := hs
  exact expectNext_ok_inv he

theorem readExactT_ok_inv {c : Cfg} {n : Nat} {t t' : List Ev} {bs : Bytes} (h : readExactT c n t = (.ok bs, t')) :
    bs.length = n ∧ bytesOf t = bs ++ bytesOf t' := by
  induction t generalizing n bs with
  | nil => cases n <;> simp_all [readExactT]
  | cons ev t ih =>
    cases n with
    | zero => simp only [readExactT, Prod.mk.injEq, Except.ok.injEq] at h; obtain ⟨rfl, rfl⟩ := h; simp
    | succ n =>
      cases ev with
      | byte b =>
        simp only [readExactT] at h
        rcases hr : readExactT c n t with ⟨e | more, t1⟩ <;> rw [hr] at h
        · simp at h
        · simp only [Prod.mk.injEq, Except.ok.injEq] at h
          obtain ⟨rfl, rfl⟩ := h
          obtain ⟨h1, h2⟩ := ih hr
          exact ⟨by simp [h1], by simp [bytesOf, h2]⟩
      | fault e =>
        simp only [readExactT] at h
        split at h
        · obtain ⟨h1, h2⟩ := ih h
          exact ⟨h1, by simpa [bytesOf] using h2⟩
        · simp at h

/-- Two lines that begin the same bytes are the same. -/
theorem rawLine_unique {a b x y : Bytes} (ha : RawLine a) (hb : RawLine b) (h : a ++ [13, 10] ++ x = b ++ [13, 10] ++ y) :
    a = b ∧ x = y := by
  have h1 := innerNextT_line (c := ⟨true⟩) (t' := x.map .byte) ha.2.1 (by
    have := delivers_map ⟨true⟩ (a ++ [13, 10]) (x.map .byte); rw [← List.map_append] at this; exact this)
  have h2 := innerNextT_line (c := ⟨true⟩) (t' := y.map .byte) hb.2.1 (by
    have := delivers_map ⟨true⟩ (b ++ [13, 10]) (y.map .byte); rw [← List.map_append] at this; exact this)
  rw [h, h2, Prod.mk.injEq] at h1
  have hab : a = b := by
    have := h1.1
    unfold lineOutcome at this
    have na : a ≠ [] := ha.1
    have nb : b ≠ [] := hb.1
    simpa [na, nb, (validUtf8_iff _).2 ha.2.2, (validUtf8_iff _).2 hb.2.2] using this.symm
  subst hab
  exact ⟨rfl, by simpa using h⟩

theorem chunkT_data_whole {c : Cfg} {k : Nat} {t : List Ev} {d : Bytes} (h : chunkT c [] (some k) t = d.map .byte) :
    ∃ x t2 d', x.length = k ∧ t = x.map .byte ++ t2 ∧ d = x ++ d' ∧ chunkT c [] (some 0) t2 = d'.map .byte := by
  induction k generalizing t d with
  | zero => exact ⟨[], t, d, rfl, rfl, rfl, h⟩
  | succ k ih =>
    cases t with
    | nil => rw [chunkT] at h; cases d <;> simp at h
    | cons ev t =>
      cases ev with
      | fault e => rw [chunkT] at h; cases d <;> simp at h
      | byte b =>
        rw [chunkT] at h
        cases d with
        | nil => simp at h
        | cons b' d =>
          simp only [List.map_cons, List.cons.injEq, Ev.byte.injEq] at h
          obtain ⟨rfl, h⟩ := h
          obtain ⟨x, t2, d', rfl, rfl, rfl, h4⟩ := ih h
          exact ⟨b :: x, t2, d', by simp, by simp, by simp, h4⟩

/-- A chunked body read to its end without an error, from a stream that has a part of the chunks, has them all. -/
theorem chunkT_whole {c : Cfg} {t : List Ev} {d more last : Bytes} {chs : List Chunk}
    (h : chunkT c [] none t = d.map .byte) (hp : bytesOf t <+: chunkedBytes chs last ++ more)
    (hs : ∀ ch ∈ chs, ch.Sized) (hl : UnsignedText 16 last 0) : d = chunkedData chs := by
  have line : ∀ {t1 : List Ev} {l x y : Bytes}, expectNextT c t = (.ok l, t1) → RawLine x →
      bytesOf t <+: x ++ [13, 10] ++ y → l = x ∧ bytesOf t1 <+: y := by
    intro t1 l x y h1 hx hy
    obtain ⟨k1, k2⟩ := expectNextT_ok_inv h1
    rw [delivers_bytesOf k2] at hy
    obtain ⟨z, hz⟩ := hy
    rw [List.append_assoc] at hz
    obtain ⟨g1, g2⟩ := rawLine_unique k1 hx hz
    exact ⟨g1, z, g2⟩
  have start : ∃ l t1 size, expectNextT c t = (.ok l, t1) ∧ fromStrRadix 16 u64Max l = some size := by
    rw [chunkT_size] at h
    rcases hx : expectNextT c t with ⟨e | l, t1⟩ <;> rw [hx] at h <;> dsimp only at h
    · cases d <;> simp at h
    · cases hr : fromStrRadix 16 u64Max l with
      | none => rw [hr] at h; cases d <;> simp at h
      | some size => exact ⟨l, t1, size, rfl, hr⟩
  obtain ⟨l, t1, size, h1, h2⟩ := start
  rw [chunkT_size, h1] at h
  dsimp only at h
  rw [h2] at h
  dsimp only at h
  cases chs with
  | nil =>
    have hb : chunkedBytes [] last ++ more = last ++ [13, 10] ++ more := by simp [chunkedBytes]
    rw [hb] at hp
    obtain ⟨rfl, _⟩ := line h1 (unsignedText_rawLine hl) hp
    rw [parseSize hl (by decide)] at h2
    rw [if_pos (by simpa using h2.symm)] at h
    cases d with
    | nil => rfl
    | cons _ _ => simp at h
  | cons ch chs =>
    obtain ⟨g1, g2, g3, g4⟩ := hs ch (by simp)
    have hb : chunkedBytes (ch :: chs) last ++ more =
        ch.size ++ [13, 10] ++ (ch.data ++ (ch.tail ++ (chunkedBytes chs last ++ more))) := by
      simp [chunkedBytes, Chunk.bytes]
    rw [hb] at hp
    obtain ⟨rfl, h3⟩ := line h1 (unsignedText_rawLine g1) hp
    rw [parseSize g1 g3] at h2
    obtain rfl : ch.data.length = size := by simpa using h2
    rw [if_neg (by have := List.length_pos_iff.2 g2; omega)] at h
    obtain ⟨x, t2, d', k1, rfl, rfl, k4⟩ := chunkT_data_whole h
    rw [bytesOf_map] at h3
    obtain ⟨z, hz⟩ := h3
    rw [List.append_assoc] at hz
    obtain ⟨rfl, hz⟩ := List.append_inj hz k1
    rw [chunkT_end] at k4
    rcases hx : readExactT c 2 t2 with ⟨e | two, t3⟩ <;> rw [hx] at k4 <;> dsimp only at k4
    · cases d' <;> simp at k4
    · obtain ⟨m1, m2⟩ := readExactT_ok_inv hx
      rename_i hz2
      rw [m2, List.append_assoc] at hz2
      obtain ⟨_, hz⟩ := List.append_inj hz2 (by rw [m1, g4])
      have hlt := expectNextT_lt h1
      have hlt2 := readExactT_lt (by omega) hx
      rw [chunkT_whole k4 ⟨z, hz⟩ (fun c hc => hs c (by simp [hc])) hl]
      simp [chunkedData]
termination_by t.length
decreasing_by simp only [List.length_append, List.length_map] at hlt; omega

theorem calls_take {σ : Type} [Reader σ] (s : σ) (sizes : List Nat) (k : Nat) :
    (calls s (sizes.take k)).1 = (calls s sizes).1.take k := by
  induction sizes generalizing s k with
  | nil => simp [calls]
  | cons n ns ih => cases k <;> simp [calls, ih]

section
variable [CaseMap] {σ : Type} [LawfulReader σ] [ZeroReader σ]

/-- The bytes of a chunked upload reach the server up to any point, with any failures of the transport between them.
If the server takes what it gets for a request, then its method, target and headers are those that were sent (no
shortened head is accepted); and a handler that sees the end of the body before it sees an error has all of the
data. -/
theorem C102_upload (c : Cfg) (s s' : σ) (m : HttpMethod) (target : Bytes) (headers : HttpHeaders) (chs : List Chunk)
    (last more : Bytes) (ht : SendableTarget target) (hh : SendableHeaders headers.entries)
    (hl : LengthOk headers.entries) (hte : (utf8 "transfer-encoding", utf8 "chunked") ∈ headers.entries)
    (hs : ∀ ch ∈ chs, ch.Sized) (hlast : UnsignedText 16 last 0)
    (hp : bytesOf (trace s) <+: requestHead m target headers.entries ++ chunkedBytes chs last ++ more)
    (r : HttpRequest c σ) (h : HttpRequest.deserialize c s = (.ok r, s')) :
    r.method = m ∧ r.uri = target ∧ r.headers = headers ∧
    ∀ sizes, Positive sizes → ∀ rs later d, (calls r.body sizes).1 = rs ++ .ok [] :: later → Pieces rs d →
      d = chunkedData chs := by
  obtain ⟨line, lines, h1, h2, h3, h4, h5⟩ := C10_request c s s' r h
  rw [delivers_bytesOf h3] at hp
  obtain ⟨z, hz⟩ := hp
  have e1 : utf8 "transfer-encoding" = b!"transfer-encoding" := by decide +kernel
  have e2 : utf8 "chunked" = b!"chunked" := by decide +kernel
  rw [e1, e2] at hte
  let u : Evs := ⟨(requestHead m target headers.entries ++ chunkedBytes chs last ++ more).map .byte⟩
  obtain ⟨r1, u1, g1, g2, g3, _, g5, g6, _, g8⟩ := h5 Evs u ((bytesOf (trace s') ++ z).map .byte) (by
    have := delivers_map c (blockBytes (line :: lines)) ((bytesOf (trace s') ++ z).map .byte)
    rw [← List.map_append, ← List.append_assoc, hz] at this
    exact this)
  obtain ⟨r2, u2, k1, k2, k3, _, k5, k6, _, k8⟩ := C18_roundtrip c u m target headers
    ((chunkedBytes chs last ++ more).map .byte) ht hh hl (by
      have := delivers_map c (requestHead m target headers.entries) ((chunkedBytes chs last ++ more).map .byte)
      rw [← List.map_append, ← List.append_assoc] at this
      exact this)
  rw [g1] at k1
  simp only [Prod.mk.injEq, Res.ok.injEq] at k1
  obtain ⟨rfl, rfl⟩ := k1
  refine ⟨g2.symm.trans k2, g3.symm.trans k3, g5.symm.trans k5, fun sizes hpos rs later d hc hd => ?_⟩
  rw [g8] at k8
  have hrest : bytesOf (trace s') ++ z = chunkedBytes chs last ++ more := by
    have := congrArg bytesOf k8
    have e : ∀ x : Bytes, bytesOf (x.map .byte) = x := fun x => by simpa [bytesOf] using bytesOf_map x []
    rwa [e, e] at this
  have hf : framing r.body = .chunked := by
    rw [← g6]; exact framedBy_unique hh.1 k6 (.chunked hte)
  obtain ⟨hu, enc, len, hb⟩ := request_under h
  have htr : trace r.body = chunkT c [] none (trace s') := by
    rw [hb] at hf ⊢
    by_cases he : enc = some b!"chunked"
    · subst he; rw [chunked_new]; rfl
    · unfold HttpBody.new at hf; rw [if_neg he] at hf; cases len <;> simp [framing] at hf
  have hcut := calls_take r.body sizes (rs.length + 1)
  rw [hc, show (rs ++ .ok [] :: later).take (rs.length + 1) = rs ++ [.ok []] by
    rw [List.take_append, List.take_of_length_le (by omega)]; simp] at hcut
  obtain ⟨q1, q2, _⟩ := calls_seen r.body (sizes := sizes.take (rs.length + 1)) fun n hn => hpos n (List.mem_of_mem_take hn)
  have q3 := q2 (by rw [hcut]; simp)
  rw [q3, List.append_nil, htr, hcut] at q1
  obtain ⟨xs, rfl, _, rfl⟩ := hd
  have hseen : seen (xs.map .ok ++ [.ok []]) = xs.flatten.map .byte := by
    rw [seen_append]
    have : ∀ xs : List Bytes, seen (xs.map .ok) = xs.flatten.map .byte := by
      intro xs
      induction xs with
      | nil => rfl
      | cons x xs ih => simp [seen, ih]
    simp [this, seen]
  rw [hseen] at q1
  exact chunkT_whole q1 ⟨z, hrest⟩ hs hlast

/-- In particular what the crate's client sends for `put`: the request with its standard headers, the buffers written,
and the last chunk. Wherever the connection breaks, a server that sees the end of the body has every byte the client's
caller wrote. -/
theorem C102_client (c : Cfg) (s s' : σ) (target host : Bytes) (bufs : List Bytes) (chs : List Chunk)
    (ht : SendableTarget target) (hhost : IsText host ∧ ¬ HasCrLf host) (hc : ChunksFor chs bufs)
    (hp : bytesOf (trace s) <+: requestHead .Put target (standardHeaders .Put host) ++ chunkedBytes chs (utf8 "0") ++ [13, 10])
    (r : HttpRequest c σ) (h : HttpRequest.deserialize c s = (.ok r, s')) :
    r.method = .Put ∧ r.uri = target ∧ r.headers.entries = standardHeaders .Put host ∧
    ∀ sizes, Positive sizes → ∀ rs later d, (calls r.body sizes).1 = rs ++ .ok [] :: later → Pieces rs d →
      d = bufs.flatten := by
  obtain ⟨hd, k1, k2, k3, k4⟩ := standard_ok .Put host hhost
  have e1 : utf8 "transfer-encoding" = b!"transfer-encoding" := by decide +kernel
  have e2 : utf8 "chunked" = b!"chunked" := by decide +kernel
  have e3 : utf8 "0" = b!"0" := by decide +kernel
  rw [← k1] at hp
  obtain ⟨g1, g2, g3, g4⟩ := C102_upload c s s' .Put target hd chs (utf8 "0") [13, 10] ht k2 k3
    (by rw [e1, e2]; exact k4 (by simp [Carries])) (fun ch hch => (hc.1 ch hch).1)
    (by rw [e3]; exact ((fromStrRadix_iff (max := 10) (by omega) (by omega)).1 (by decide)).1) hp r h
  refine ⟨g1, g2, by rw [g3, k1], fun sizes hpos rs later d h1 h2 => ?_⟩
  rw [g4 sizes hpos rs later d h1 h2, chunkedData, hc.2]
  clear h hp hc
  induction bufs with
  | nil => rfl
  | cons b bufs ih => by_cases hb : b = [] <;> simp_all
end

/-- Witness for `C102_client` and so for `C102_upload`: `abc` is put, and the connection fails after the first two bytes
of the data. The server takes the head for a request. -/
example : let _ := asciiCase
    let s := Wire.mk [.data b!"PUT /x HTTP/1.1\r\naccept: */*\r\nhost: h\r\ntransfer-encoding: chunked\r\nuser-agent: http_io\r\n",
      .data b!"\r\n3\r\nab", .fault (.io (.other 5))]
    SendableTarget b!"/x" ∧ (IsText b!"h" ∧ ¬ HasCrLf b!"h") ∧ ChunksFor [⟨b!"3", b!"abc", [13, 10]⟩] [b!"abc", []] ∧
    bytesOf (trace s) <+: requestHead .Put b!"/x" (standardHeaders .Put b!"h") ++
      chunkedBytes [⟨b!"3", b!"abc", [13, 10]⟩] (utf8 "0") ++ [13, 10] ∧
    ∃ r s', HttpRequest.deserialize ⟨false⟩ s = (.ok r, s') := by
  intro _ s
  refine ⟨⟨by decide, isText_ascii (by decide), by decide, by decide, by unfold HasCrLf; decide⟩,
    ⟨isText_ascii (by decide), by unfold HasCrLf; decide⟩, ⟨?_, by decide⟩, ?_, ?_⟩
  · intro ch hch
    simp only [List.mem_singleton] at hch
    subst hch
    exact ⟨⟨((fromStrRadix_iff (max := 10) (by omega) (by omega)).1 (by decide)).1, by decide, by decide, rfl⟩, rfl⟩
  · exact ⟨b!"c\r\n0\r\n\r\n", by decide +kernel⟩
  · have key : (match HttpRequest.deserialize ⟨false⟩ s with
      | (.ok _, _) => true
      | _ => false) = true := by decide +kernel
    split at key
    · exact ⟨_, _, ‹_›⟩
    · simp at key

end HttpIo
