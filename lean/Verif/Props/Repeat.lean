import Verif.Spec.Repeat
import Verif.Spec.Pipes
import Verif.Lemmas.Leftover
import Verif.Lemmas.Handed
import Verif.Lemmas.Unrepeated
import Verif.Props.SendFails
import Verif.Props.Body

/-! C156: a write of a request's body that failed can be repeated. -/

namespace HttpIo
open Spec

section
variable {c : Cfg} {σ τ : Type} [LawfulWriter σ]

theorem attempt_clean {b : OutgoingBody c σ} {cs : List WCall} (hlen : ∀ buf ∈ written cs, buf.length < 2 ^ 64)
    (hc : FailsClean outgoingSent (OutgoingRequest.WithBody b) cs) :
    ∃ (b' : OutgoingBody c σ) (chs : List Chunk), (attempt (OutgoingRequest.WithBody b) cs).2 = .WithBody b' ∧
      (∀ ch ∈ chs, ch.WellFormed) ∧ chunkedData chs = acceptedBytes cs (attempt (OutgoingRequest.WithBody b) cs).1 ∧
      sent b'.socket = sent b.socket ++ (chs.map Chunk.bytes).flatten := by
  induction cs generalizing b with
  | nil => exact ⟨b, [], rfl, by simp, rfl, by simp⟩
  | cons call cs ih =>
    cases call with
    | flush =>
      rcases hw : flush (OutgoingRequest.WithBody b) with ⟨r, o'⟩
      have ho : o' = .WithBody b.flushImpl.2 := by
        have := congrArg Prod.snd hw
        exact this.symm
      subst ho
      unfold FailsClean at hc
      rw [hw] at hc
      obtain ⟨b', chs, h1, h2, h3, h4⟩ := ih (b := b.flushImpl.2) hlen hc
      refine ⟨b', chs, ?_, h2, ?_, ?_⟩
      · simp only [attempt]; rw [hw]; exact h1
      · simp only [attempt]; rw [hw]; exact h3
      · rw [h4, show sent b.flushImpl.2.socket = sent b.socket from ?_]
        exact LawfulWriter.flush_sent b.socket
    | write buf =>
      rcases hb : b.writeImpl buf with ⟨r, b1⟩
      have hw : write (OutgoingRequest.WithBody b) buf = (r, .WithBody b1) := by
        show ((b.writeImpl buf).1, OutgoingRequest.WithBody (b.writeImpl buf).2) = _
        rw [hb]
      obtain ⟨_, p, g1, g2, g3⟩ := OutgoingBody.write_sent hb
      unfold FailsClean at hc
      rw [hw] at hc
      obtain ⟨b', chs, h1, h2, h3, h4⟩ := ih (b := b1) (fun buf h => hlen buf (by simp [written, h])) hc.2
      have ha : (attempt (OutgoingRequest.WithBody b) (.write buf :: cs)) =
          (r :: (attempt (OutgoingRequest.WithBody b1) cs).1, (attempt (OutgoingRequest.WithBody b1) cs).2) := by
        simp only [attempt]; rw [hw]
      rw [ha]
      cases r with
      | error e =>
        have := hc.1 e rfl
        exact ⟨b', chs, h1, h2, h3, by rw [h4]; congr 1⟩
      | ok k =>
        obtain ⟨e1, rfl⟩ := g3 k rfl
        subst e1
        by_cases h0 : buf = []
        · subst h0
          exact ⟨b', chs, h1, h2, by simpa [acceptedBytes] using h3, by rw [h4, g2]; simp [emitted]⟩
        · obtain ⟨ch, k1, k2, k3⟩ := emitted_chunk h0 (hlen buf (by simp [written]))
          refine ⟨b', ch :: chs, h1, ?_, ?_, ?_⟩
          · intro x hx
            simp only [List.mem_cons] at hx
            rcases hx with rfl | hx
            · exact k1
            · exact h2 x hx
          · simp only [acceptedBytes, List.take_length]
            rw [← h3]
            simp [chunkedData, k2]
          · rw [h4, g2, ← k3]; simp

/-- Where no failed write had handed on part of its chunk, the upload is what the caller was told: of each buffer what
its call reported, in order, whatever flushes failed. Missing for the full property: failed writes that had begun their
chunk; with them it is false (`C156_repeated_false`). -/
theorem C156_clean_partial (r : HttpRequest c τ) (hv : r.version = ⟨1, 1⟩) (s s' : σ) (o : OutgoingRequest c σ)
    (hm : r.method = .Delete ∨ r.method = .Post ∨ r.method = .Put) (h : r.serialize (BufWriter.new c s) = .ok o)
    (cs : List WCall) (hlen : ∀ buf ∈ written cs, buf.length < 2 ^ 64) (hc : FailsClean outgoingSent o cs)
    (hd : (attempt o cs).2.complete = .ok s') :
    ∃ body, wire s' = sent s ++ requestHead r.method r.uri r.headers.entries ++ body ∧
      ∀ (c' : Cfg) (ρ : Type) [LawfulReader ρ] [ZeroReader ρ] (n : Option Nat) (u : ρ) (rest : List Ev), LawfulReader.trace u = body.map .byte ++ rest →
        Yields (HttpBody.new c' (some b!"chunked") n u) (acceptedBytes cs (attempt o cs).1) := by
  obtain ⟨g1, g2⟩ := C18_serialized r s hv o h
  obtain ⟨b, rfl⟩ := g2.2 hm
  obtain ⟨b', chs, k1, k2, k3, k4⟩ := attempt_clean (b := b) hlen hc
  rw [k1] at hd
  obtain ⟨k5, k6⟩ := OutgoingBody.complete_ok hd
  refine ⟨chunkedBytes chs b!"0" ++ [13, 10], ?_, ?_⟩
  · rw [k6, k5, k4, show sent b.socket = outgoingSent (.WithBody b) from rfl, g1]
    simp [chunkedBytes]
  · intro c' ρ _ _ n u rest hu
    rw [← k3]
    refine (C24_decode c' n u chs b!"0" ([13, 10].map .byte ++ rest) k2 (.inl (.one (.dec 0 (by omega) (by omega)))) ?_).1
    rw [hu, List.map_append, List.append_assoc]
    exact deliversChunked_map c' chs _ _

/-- The crate's own way to send a body does not repeat a write that failed: if `copy` into a request succeeds and the request is
finished, the upload is the contents of the reader, however often the transport was interrupted. -/
theorem C156_copy_partial {ρ' : Type} [LawfulReader ρ'] (hu : Unrepeated c σ) (r : HttpRequest c τ) (hv : r.version = ⟨1, 1⟩) (s s' : σ)
    (o o' : OutgoingRequest c σ) (hm : r.method = .Delete ∨ r.method = .Post ∨ r.method = .Put)
    (h : r.serialize (BufWriter.new c s) = .ok o) (body body' : ρ') (k : Nat) (hc : copy c body o 0 = (.ok k, body', o'))
    (hd : o'.complete = .ok s') :
    ∃ bs t' up, Delivers c (LawfulReader.trace body) bs t' ∧ Ended c t' ∧
      wire s' = sent s ++ requestHead r.method r.uri r.headers.entries ++ up ∧
      ∀ (c' : Cfg) (ρ : Type) [LawfulReader ρ] [ZeroReader ρ] (n : Option Nat) (u : ρ) (rest : List Ev), LawfulReader.trace u = up.map .byte ++ rest →
        Yields (HttpBody.new c' (some b!"chunked") n u) bs := by
  obtain ⟨g1, g2⟩ := C18_serialized r s hv o h
  obtain ⟨b, rfl⟩ := g2.2 hm
  obtain ⟨bufs, b', t', f1, f2, f3, f4, f5⟩ := hu.copy hc
  subst f1
  obtain ⟨k5, k6⟩ := OutgoingBody.complete_ok hd
  obtain ⟨_, p, _, m2, m3⟩ := OutgoingBody.perform_sent f2
  obtain ⟨chs, c1, c2⟩ := chunksFor bufs f5
  rw [m3 rfl, written_map, c2] at m2
  refine ⟨bufs.flatten, t', chunkedBytes chs b!"0" ++ [13, 10], f3, f4, ?_, ?_⟩
  · rw [k6, k5, m2, show sent b.socket = outgoingSent (.WithBody b) from rfl, g1]
    simp [chunkedBytes]
  · intro c' ρ _ _ n u rest hu
    rw [← chunkedData_for c1]
    refine (C24_decode c' n u chs b!"0" ([13, 10].map .byte ++ rest) c1.1 (.inl (.one (.dec 0 (by omega) (by omega)))) ?_).1
    rw [hu, List.map_append, List.append_assoc]
    exact deliversChunked_map c' chs _ _

omit [LawfulWriter σ] in
theorem writeLoop_rest [FiniteWriter σ] {s s' : σ} {buf rest : Bytes} {r : Except Err Unit} (h : writeLoop c s buf = (r, rest, s')) :
    rest.length ≤ buf.length := by
  fun_induction writeLoop c s buf <;> simp_all <;> grind

theorem attempt_small (hs : c.std = true) {b : OutgoingBody c σ} {cs : List WCall}
    (hl : b.socket.buf.length + ((written cs).map emitted).flatten.length < bufCap) :
    WritesOk cs (attempt (OutgoingRequest.WithBody b) cs).1 := by
  induction cs generalizing b with
  | nil => exact ⟨rfl, rfl⟩
  | cons call cs ih =>
    cases call with
    | flush =>
      have hw : flush (OutgoingRequest.WithBody b) = (b.flushImpl.1, .WithBody b.flushImpl.2) := rfl
      simp only [attempt]
      rw [hw]
      refine ih (b := b.flushImpl.2) ?_
      have : b.flushImpl.2.socket.buf.length ≤ b.socket.buf.length := by
        show b.socket.flushImpl.2.buf.length ≤ _
        unfold BufWriter.flushImpl
        rw [if_pos hs]
        unfold BufWriter.flushBuf
        rcases h1 : writeLoop c b.socket.inner b.socket.buf with ⟨r, rest, i⟩
        have := writeLoop_rest h1
        cases r <;> simpa using this
      simp only [written] at hl
      omega
    | write buf =>
      simp only [written, List.map_cons, List.flatten_cons, List.length_append] at hl
      have hb : b.writeImpl buf = (.ok buf.length, ⟨{ b.socket with buf := b.socket.buf ++ emitted buf }⟩) := by
        unfold OutgoingBody.writeImpl
        by_cases h0 : buf = []
        · subst h0; simp [emitted]
        · have he : emitted buf = showHex buf.length ++ [13, 10] ++ buf ++ [13, 10] := by unfold emitted; rw [if_neg h0]
          have hlen : (emitted buf).length = (showHex buf.length).length + 2 + buf.length + 2 := by rw [he]; simp; omega
          rw [if_neg (by simpa using h0), writePieces_short hs (by simp; omega)]
          dsimp only
          rw [writeAll_short hs (by simp; omega)]
          dsimp only
          rw [writePieces_short hs (by simp; omega), he]
          simp
      have hw : write (OutgoingRequest.WithBody b) buf = (.ok buf.length, .WithBody ⟨{ b.socket with buf := b.socket.buf ++ emitted buf }⟩) := by
        show ((b.writeImpl buf).1, OutgoingRequest.WithBody (b.writeImpl buf).2) = _
        rw [hb]
      simp only [attempt]
      rw [hw]
      refine ⟨rfl, ih (b := ⟨{ b.socket with buf := b.socket.buf ++ emitted buf }⟩) ?_⟩
      simp only [List.length_append]
      omega

omit [LawfulWriter σ] in
theorem failsClean_of_ok [FiniteWriter σ] {out : σ → Bytes} {s : σ} {cs : List WCall} (h : WritesOk cs (attempt s cs).1) :
    FailsClean out s cs := by
  induction cs generalizing s with
  | nil => trivial
  | cons call cs ih =>
    cases call with
    | flush => exact ih h
    | write buf =>
      refine ⟨fun e he => ?_, ih h.2⟩
      have := h.1
      rw [this] at he
      simp at he

theorem accepted_of_ok {cs : List WCall} {rs : List (Except Err Nat)} (h : WritesOk cs rs) : acceptedBytes cs rs = (written cs).flatten := by
  induction cs generalizing rs with
  | nil => cases rs <;> simp [acceptedBytes, written]
  | cons call cs ih =>
    cases rs with
    | nil => cases call <;> simp [WritesOk] at h
    | cons r rs =>
      cases call with
      | flush => exact ih h
      | write buf =>
        obtain ⟨rfl, h⟩ := h
        simp only [acceptedBytes, written, List.flatten_cons, List.take_length]
        rw [ih h]

instance failsCleanDecidable {υ : Type} [FiniteWriter υ] (out : υ → Bytes) : ∀ (s : υ) (cs : List WCall), Decidable (FailsClean out s cs)
  | _, [] => isTrue trivial
  | s, .flush :: cs => failsCleanDecidable out (flush s).2 cs
  | s, .write buf :: cs =>
    have := failsCleanDecidable out (write s buf).2 cs
    have : Decidable (∀ e, (write s buf).1 = .error e → out (write s buf).2 = out s) :=
      match h : (write s buf).1 with
      | .ok _ => isTrue (fun _ he => by simp at he)
      | .error e => decidable_of_iff (out (write s buf).2 = out s) ⟨fun h _ _ => h, fun h => h e rfl⟩
    inferInstanceAs (Decidable (_ ∧ _))

/-- Witness for `C156_clean_partial`: the second write fails before anything of it was handed over and is repeated. -/
example :
    let s : Sink := ⟨[], 0, List.replicate 14 (.accept 100) ++ [.fault .other]⟩
    (match (HttpRequest.new ⟨false⟩ .Post b!"/x").serialize (BufWriter.new ⟨false⟩ s) with
      | .ok o =>
        let cs : List WCall := [.write b!"ab", .write b!"hello", .flush, .write b!"hello"]
        match (attempt o cs).2.complete with
        | .ok s' => decide (FailsClean outgoingSent o cs ∧ (attempt o cs).1 = [.ok 2, .error .other, .ok 0, .ok 5] ∧
            wire s' = b!"POST /x HTTP/1.1\r\n\r\n2\r\nab\r\n5\r\nhello\r\n0\r\n\r\n")
        | .error _ => false
      | .error _ => false) = true := by
  decide +kernel

/-- With `std`, a request that fits with its body into the buffer of 8 KiB: no write fails, whatever the transport does, and
if the request is finished the upload is what was written. -/
theorem C156_small_partial (hs : c.std = true) (r : HttpRequest c τ) (hv : r.version = ⟨1, 1⟩) (s : σ)
    (hm : r.method = .Delete ∨ r.method = .Post ∨ r.method = .Put) (cs : List WCall)
    (hl : (requestHead r.method r.uri r.headers.entries).length + uploadSize (written cs) ≤ 8192) :
    ∃ o, r.serialize (BufWriter.new c s) = .ok o ∧ WritesOk cs (attempt o cs).1 ∧
      ∀ s', (attempt o cs).2.complete = .ok s' →
        ∃ body, wire s' = sent s ++ requestHead r.method r.uri r.headers.entries ++ body ∧
          ∀ (c' : Cfg) (ρ : Type) [LawfulReader ρ] [ZeroReader ρ] (n : Option Nat) (u : ρ) (rest : List Ev), LawfulReader.trace u = body.map .byte ++ rest →
            Yields (HttpBody.new c' (some b!"chunked") n u) (written cs).flatten := by
  have hh := request_headPieces r hv
  rw [← upload_length, List.length_append] at hl
  have h5 : (b!"0\r\n\r\n").length = 5 := by decide
  have hb : r.method.hasBody = true := by
    rcases hm with h | h | h <;> rw [h] <;> rfl
  have h : r.serialize (BufWriter.new c s) = .ok (.WithBody ⟨⟨s, requestHead r.method r.uri r.headers.entries⟩⟩) := by
    unfold HttpRequest.serialize
    rw [writePieces_short hs (by rw [hh]; simp only [BufWriter.new, bufCap, List.length_nil]; omega), hh]
    dsimp only
    rw [if_pos hb]
    rfl
  have hw := attempt_small hs (b := ⟨⟨s, requestHead r.method r.uri r.headers.entries⟩⟩) (cs := cs) (by
    simp only [bufCap]; omega)
  refine ⟨_, h, hw, fun s' hd => ?_⟩
  rw [← accepted_of_ok hw]
  refine C156_clean_partial r hv s s' _ hm h cs (fun buf hbuf => ?_) (failsClean_of_ok hw) hd
  have : buf.length ≤ ((written cs).map emitted).flatten.length := by
    clear hw h hl hd
    generalize written cs = bufs at hbuf
    induction bufs with
    | nil => simp at hbuf
    | cons x xs ih =>
      simp only [List.map_cons, List.flatten_cons, List.length_append]
      simp only [List.mem_cons] at hbuf
      rcases hbuf with rfl | hx
      · by_cases h0 : buf = []
        · subst h0; simp
        · rw [emitted_length buf h0]; omega
      · have := ih hx; omega
  omega

end

/-- Witness for `C156_copy_partial`: the transport is interrupted while the buffer is emptied, and so is the reader. -/
example :
    let s : Sink := ⟨[], 0, [.accept 10, .fault (.io .interrupted), .accept 1, .fault (.io .interrupted)]⟩
    (∀ c, Unrepeated c Sink) ∧
    (match (HttpRequest.new ⟨true⟩ .Post b!"/x").serialize (BufWriter.new ⟨true⟩ s) with
      | .ok o =>
        match copy ⟨true⟩ (Wire.mk [.data b!"ab", .fault (.io .interrupted), .data b!"hello"]) o 0 with
        | (.ok _, _, o') =>
          match o'.complete with
          | .ok s' => wire s' == b!"POST /x HTTP/1.1\r\n\r\n2\r\nab\r\n5\r\nhello\r\n0\r\n\r\n"
          | .error _ => false
        | _ => false
      | .error _ => false) = true := by
  refine ⟨fun c => Spec.PlainWriteAll.unrepeated fun _ _ _ => rfl, ?_⟩
  decide +kernel

/-- Witness for `C156_small_partial`: two flushes fail (the first one in the middle of the head), the writes do not. -/
example :
    let s : Sink := ⟨[], 0, [.accept 3, .fault .other, .fault .other]⟩
    let cs : List WCall := [.flush, .write b!"ab", .flush, .write b!"hello"]
    (requestHead .Post b!"/x" []).length + uploadSize (written cs) ≤ 8192 ∧
    (match (HttpRequest.new ⟨true⟩ .Post b!"/x").serialize (BufWriter.new ⟨true⟩ s) with
      | .ok o =>
        match (attempt o cs).2.complete with
        | .ok s' => decide ((attempt o cs).1 = [.error .other, .ok 2, .error .other, .ok 5] ∧
            wire s' = b!"POST /x HTTP/1.1\r\n\r\n2\r\nab\r\n5\r\nhello\r\n0\r\n\r\n")
        | .error _ => false
      | .error _ => false) = true := by
  decide +kernel

/-- A transport that would block once in the middle of the second write: after its length (no `std`) or when the buffer is
first emptied. -/
def blocking (c : Cfg) : Sink :=
  ⟨[], 0, (if c.std then [] else List.replicate 15 (.accept 100)) ++ [.fault (.io (.other 1))]⟩

/-- A first write, which with `std` leaves two bytes of the buffer free. -/
def firstWrite (c : Cfg) : Bytes := if c.std then List.replicate 8162 97 else b!"ab"

/-- The writes: the second one fails and is repeated. -/
def repeating (c : Cfg) : List WCall :=
  [.write (firstWrite c), .write b!"hello", .write b!"hello", .write (List.replicate 74 98)]

theorem received_pieces {rs : List (Except Err Bytes)} {bs : Bytes} (h : Pieces rs bs) : received rs = bs := by
  obtain ⟨xs, rfl, _, rfl⟩ := h
  induction xs with
  | nil => rfl
  | cons x xs ih => simp_all [received]

/-- A reader yields one text only. -/
theorem yields_one {σ : Type} [Reader σ] {s : σ} {a b : Bytes} (ha : Yields s a) (hb : Yields s b) : a = b := by
  have hp : Positive (List.replicate (a.length + b.length + 1) 1) := by
    intro n hn
    rw [List.eq_of_mem_replicate hn]; omega
  have h1 := ha _ hp
  have h2 := hb _ hp
  rw [List.length_replicate] at h1 h2
  rcases h1 with ⟨_, _, _, h1⟩ | ⟨rs, k, h1, h1'⟩
  · omega
  · rcases h2 with ⟨_, _, _, h2⟩ | ⟨rs', k', h2, h2'⟩
    · omega
    · have := h1.symm.trans h2
      have := congrArg received this
      rw [received_append, received_append, received_replicate, received_replicate, received_pieces h1', received_pieces h2'] at this
      simpa using this

/-- What the receiver makes of `repeating`: the data of the first write, then one chunk of 0x55 bytes. -/
def misread (c : Cfg) : List Chunk :=
  (if c.std then [⟨b!"1fe2", firstWrite c, b!"\r\n"⟩] else [⟨b!"2", b!"ab", b!"\r\n"⟩]) ++
    [⟨b!"55", b!"hello\r\n4a\r\n" ++ List.replicate 74 98, b!"\r\n"⟩]

/-- The property is false. The second write fails after it has handed on the length `5`; the caller repeats it, everything
else succeeds, the request is finished. The receiver reads `55` for the length of the second chunk, takes the framing that
follows for data, and comes to the end of the body without an error. -/
theorem C156_repeated_false (c : Cfg) :
    ¬ ∀ (r : HttpRequest c (BufReader c EmptyReader)) (s s' : Sink) (o : OutgoingRequest c Sink) (cs : List WCall) (body : Bytes),
      r.version = ⟨1, 1⟩ → r.method = .Post → r.serialize (BufWriter.new c s) = .ok o →
      (attempt o cs).2.complete = .ok s' → wire s' = sent s ++ requestHead r.method r.uri r.headers.entries ++ body →
      Yields (HttpBody.new c (some b!"chunked") none (Wire.mk [.data body])) (acceptedBytes cs (attempt o cs).1) := by
  intro h
  have key : (match (HttpRequest.new c .Post b!"/x").serialize (BufWriter.new c (blocking c)) with
      | .ok o =>
        match (attempt o (repeating c)).2.complete with
        | .ok s' => (wire s' == sent (blocking c) ++ b!"POST /x HTTP/1.1\r\n\r\n" ++ (chunkedBytes (misread c) b!"0" ++ [13, 10])) &&
            decide ((attempt o (repeating c)).1 = [.ok (firstWrite c).length, .error (.io (.other 1)), .ok 5, .ok 74])
        | .error _ => false
      | .error _ => false) = true := by
    rcases c with ⟨_ | _⟩ <;> decide +kernel
  rcases h1 : (HttpRequest.new c .Post b!"/x").serialize (BufWriter.new c (blocking c)) with x | o
  · rw [h1] at key; simp at key
  rw [h1] at key
  dsimp only at key
  rcases h2 : (attempt o (repeating c)).2.complete with x | s'
  · rw [h2] at key; simp at key
  rw [h2] at key
  dsimp only at key
  rw [Bool.and_eq_true, decide_eq_true_iff] at key
  have k1 := eq_of_beq key.1
  have k2 := key.2
  have h3 := h _ _ _ _ _ (chunkedBytes (misread c) b!"0" ++ [13, 10]) rfl rfl h1 h2 (by
    rw [k1]
    have : requestHead HttpMethod.Post b!"/x" [] = b!"POST /x HTTP/1.1\r\n\r\n" := by decide +kernel
    rw [← this]; rfl)
  rw [k2] at h3
  have h4 := (decode_sized c none (Wire.mk [.data (chunkedBytes (misread c) b!"0" ++ [13, 10])]) (misread c) b!"0" ([13, 10].map .byte) (by
      intro ch hch
      have h55 : UnsignedText 16 b!"55" 85 :=
        .inl (.snoc (ds := b!"5") (n := 5) (.one (.dec 5 (by omega) (by omega))) (.dec 5 (by omega) (by omega)))
      have h2 : UnsignedText 16 b!"2" 2 := .inl (.one (.dec 2 (by omega) (by omega)))
      have h1fe2 : UnsignedText 16 b!"1fe2" 8162 := by
        have := numeral_showHex 8162
        rw [show showHex 8162 = b!"1fe2" by decide +kernel] at this
        exact .inl this
      unfold misread at hch
      simp only [List.mem_append, List.mem_singleton] at hch
      rcases hch with hch | rfl
      · by_cases hs : c.std = true
        · rw [if_pos hs] at hch
          simp only [List.mem_singleton] at hch
          subst hch
          have hf : firstWrite c = List.replicate 8162 97 := by unfold firstWrite; rw [if_pos hs]
          refine ⟨?_, ?_, ?_, rfl⟩ <;> simp only [hf, List.length_replicate]
          · exact h1fe2
          · exact List.ne_nil_of_length_pos (by rw [List.length_replicate]; omega)
          · omega
        · rw [if_neg hs] at hch
          simp only [List.mem_singleton] at hch
          subst hch
          exact ⟨h2, by decide, by decide, rfl⟩
      · exact ⟨h55, by decide, by decide, rfl⟩)
    (.inl (.one (.dec 0 (by omega) (by omega)))) (by
      rw [show trace (Wire.mk [.data (chunkedBytes (misread c) b!"0" ++ [13, 10])]) =
        (chunkedBytes (misread c) b!"0").map .byte ++ [13, 10].map .byte by rw [Wire.trace_eq]; simp [WireEv.events]]
      exact deliversChunked_map c (misread c) b!"0" ([13, 10].map .byte))).1
  have h5 := congrArg List.length (yields_one h3 h4)
  revert h5
  rcases c with ⟨_ | _⟩ <;> decide +kernel

end HttpIo
