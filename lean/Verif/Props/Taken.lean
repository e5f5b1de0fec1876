import Verif.Spec.Taken
import Verif.Props.Nesting
import Verif.Props.CutUpload
import Verif.Props.ChunkSize

/-! C128: how much of the connection one read of a body takes. -/

namespace HttpIo
open Spec

section
variable {c : Cfg} {ρ : Type} [LawfulReader ρ] [ZeroReader ρ]

/-- What a read of the data of a chunk takes is what it gives. -/
theorem take_taken {t t' : Take ρ} {n : Nat} {bs : Bytes} (hn : 0 < n) (h : read t n = (.ok bs, t')) :
    bytesOf (trace t.inner) = bs ++ bytesOf (trace t'.inner) := by
  rw [Take.read_def] at h
  unfold Take.readImpl at h
  split at h
  · simp only [Prod.mk.injEq, Except.ok.injEq] at h
    rw [← h.1, ← h.2]; rfl
  · rename_i hl
    rcases hi : read t.inner (min n t.limit) with ⟨res, i⟩
    rw [hi] at h
    cases res with
    | error e => simp at h
    | ok x =>
      simp only [Prod.mk.injEq, Except.ok.injEq] at h
      have hst := LawfulReader.read_step t.inner (min n t.limit) (by omega)
      rw [hi] at hst
      have := hst.split
      dsimp only at this
      rw [this, bytesOf_map, h.1, ← h.2]

/-- What reading a size line takes. -/
theorem size_taken {s s' : ρ} {r : Option (Take ρ)} (h : HttpBodyChunk.new c s = (.ok r, s')) :
    ∃ l m, UnsignedText 16 l m ∧ bytesOf (trace s) = l ++ [13, 10] ++ bytesOf (trace s') ∧
      (r = none ∧ m = 0 ∨ r = some ⟨s', m⟩ ∧ 0 < m) := by
  unfold HttpBodyChunk.new at h
  split at h
  · simp at h
  · rename_i l s1 he
    have hb := delivers_bytesOf (expectNext_ok_inv he).2
    split at h
    · simp at h
    · rename_i m hm
      have hu := ((fromStrRadix_iff (by omega) (by omega)).1 hm).1
      split at h
      · rename_i h0
        simp only [Prod.mk.injEq, Except.ok.injEq] at h
        rw [h.2] at hb
        exact ⟨l, m, hu, hb, .inl ⟨h.1.symm, h0⟩⟩
      · rename_i h0
        simp only [Prod.mk.injEq, Except.ok.injEq] at h
        rw [h.2] at hb h
        exact ⟨l, m, hu, hb, .inr ⟨h.1.symm, by omega⟩⟩

theorem stream_taken {b b' : HttpChunkedBody c ρ} {s : ρ} {n : Nat} {bs : Bytes} (hn : 0 < n) (hc : b.chunk = none)
    (hs : b.stream = some s) (h : b.readImpl n = (.ok bs, b')) :
    ∃ l m s', UnsignedText 16 l m ∧ (HttpBody.Chunked b').under = some s' ∧
      bytesOf (trace s) = l ++ [13, 10] ++ bs ++ bytesOf (trace s') := by
  rw [C127_step] at h
  unfold HttpChunkedBody.step at h
  rw [hc] at h
  dsimp only at h
  rw [hs] at h
  dsimp only at h
  rcases hnew : HttpBodyChunk.new c s with ⟨e | _ | ch, s1⟩ <;> rw [hnew] at h <;> dsimp only at h
  · simp at h
  · obtain ⟨l, m, h1, h2, _⟩ := size_taken hnew
    simp only [Prod.mk.injEq, Except.ok.injEq] at h
    refine ⟨l, m, s1, h1, ?_, ?_⟩
    · rw [← h.2]; rfl
    · rw [h2, ← h.1, List.append_nil]
  · obtain ⟨l, m, h1, h2, h3⟩ := size_taken hnew
    have hm : ch = ⟨s1, m⟩ ∧ 0 < m := by rcases h3 with ⟨h3, _⟩ | ⟨h3, h4⟩ <;> simp at h3; exact ⟨h3, h4⟩
    rw [C127_step] at h
    generalize hb1 : ({ b with stream := none, chunk := some ch } : HttpChunkedBody c ρ) = b1 at h
    have hc1 : b1.chunk = some ch := by rw [← hb1]
    unfold HttpChunkedBody.step at h
    rw [hc1] at h
    dsimp only at h
    rcases hr : read ch n with ⟨e | _ | ⟨x, xs⟩, ch'⟩ <;> rw [hr] at h <;> dsimp only at h
    · simp at h
    · rcases he : readExact c ch'.inner 2 with ⟨e | x, s2⟩ <;> rw [he] at h <;> dsimp only at h
      · simp at h
      · exact absurd (HttpChunkedBody.Calls.next hc1 hr he) (opened_leaf hn hc1 (by rw [hm.1]; exact hm.2))
    · simp only [Prod.mk.injEq, Except.ok.injEq] at h
      refine ⟨l, m, ch'.inner, h1, ?_, ?_⟩
      · rw [← h.2]; rfl
      · have := take_taken hn hr
        rw [hm.1] at this
        rw [h2, this, ← h.1]; simp

/-- What one read of a chunked body takes from its stream: what it gives, and before it at most the end of a chunk and one size
line. Missing for the full property: a bound on the size line, see `C128_size_false`. -/
theorem C128_chunked_partial {b b' : HttpChunkedBody c ρ} {s : ρ} {n : Nat} {bs : Bytes} (hn : 0 < n)
    (hu : (HttpBody.Chunked b).under = some s) (h : read (HttpBody.Chunked b) n = (.ok bs, .Chunked b')) :
    ∃ pre s', Overhead pre ∧ (HttpBody.Chunked b').under = some s' ∧ bytesOf (trace s) = pre ++ bs ++ bytesOf (trace s') := by
  replace h : b.readImpl n = (.ok bs, b') := by
    have : ((b.readImpl n).1, HttpBody.Chunked (b.readImpl n).2) = (.ok bs, HttpBody.Chunked b') := h
    simp only [Prod.mk.injEq, HttpBody.Chunked.injEq] at this
    rw [← this.1, ← this.2]
  cases hc : b.chunk with
  | none =>
    cases hs : b.stream with
    | none =>
      rw [C127_step] at h
      unfold HttpChunkedBody.step at h
      rw [hc] at h
      dsimp only at h
      rw [hs] at h
      simp only [Prod.mk.injEq, Except.ok.injEq] at h
      refine ⟨[], s, .none, ?_, ?_⟩
      · rw [← h.2]; exact hu
      · rw [← h.1]; rfl
    | some s0 =>
      have : s0 = s := by
        unfold HttpBody.under at hu
        dsimp only at hu
        rw [hc] at hu
        dsimp only at hu
        rw [hs] at hu
        exact Option.some.inj hu
      subst this
      obtain ⟨l, m, s', h1, h2, h3⟩ := stream_taken hn hc hs h
      exact ⟨_, s', .size h1, h2, h3⟩
  | some ch =>
    have hi : ch.inner = s := by
      unfold HttpBody.under at hu
      dsimp only at hu
      rw [hc] at hu
      exact Option.some.inj hu
    rw [C127_step] at h
    unfold HttpChunkedBody.step at h
    rw [hc] at h
    dsimp only at h
    rcases hr : read ch n with ⟨e | _ | ⟨x, xs⟩, ch'⟩ <;> rw [hr] at h <;> dsimp only at h
    · simp at h
    · rcases he : readExact c ch'.inner 2 with ⟨e | x, s2⟩ <;> rw [he] at h <;> dsimp only at h
      · simp at h
      · obtain ⟨l, m, s', h1, h2, h3⟩ := stream_taken hn rfl rfl h
        have h4 := take_taken hn hr
        have h5 := readExact_trace c ch'.inner 2
        rw [he] at h5
        obtain ⟨h6, h7⟩ := readExactT_ok_inv h5.symm
        refine ⟨_, s', .both h6 h1, h2, ?_⟩
        rw [← hi, h4, List.nil_append, h7, h3]; simp
    · simp only [Prod.mk.injEq, Except.ok.injEq] at h
      refine ⟨[], ch'.inner, .none, ?_, ?_⟩
      · rw [← h.2]; rfl
      · rw [← hi, take_taken hn hr, ← h.1]; rfl

/-- The second read of a chunked body, with a buffer of eight bytes: it takes the end of the first chunk, the line `02` and `cd`. -/
example : ∀ c : Cfg,
    ((read (read (HttpBody.new c (some b!"chunked") none (BufReader.new c (⟨[.data b!"2\r\nab\r\n02\r\ncd\r\n0\r\n"]⟩ : Wire))) 8).2 8).1,
      (read (HttpBody.new c (some b!"chunked") none (BufReader.new c (⟨[.data b!"2\r\nab\r\n02\r\ncd\r\n0\r\n"]⟩ : Wire))) 8).2.under.map
        (fun s => bytesOf (trace s)),
      (read (read (HttpBody.new c (some b!"chunked") none (BufReader.new c (⟨[.data b!"2\r\nab\r\n02\r\ncd\r\n0\r\n"]⟩ : Wire))) 8).2 8).2.under.map
        (fun s => bytesOf (trace s))) = (.ok b!"cd", some b!"\r\n02\r\ncd\r\n0\r\n", some b!"\r\n0\r\n") := by
  rintro ⟨_ | _⟩ <;> decide +kernel

/-- Other bodies: what a read takes is what it gives. -/
theorem C128_plain {b b' : HttpBody c ρ} {s : ρ} {n : Nat} {bs : Bytes} (hn : 0 < n) (hb : ∀ x, b ≠ .Chunked x)
    (hu : b.under = some s) (h : read b n = (.ok bs, b')) :
    ∃ s', b'.under = some s' ∧ bytesOf (trace s) = bs ++ bytesOf (trace s') := by
  cases b with
  | Chunked x => exact absurd rfl (hb x)
  | Limited t =>
    have h' : ((read t n).1, HttpBody.Limited (c := c) (read t n).2) = (.ok bs, b') := h
    simp only [Prod.mk.injEq] at h'
    rw [← Option.some.inj hu, ← h'.2]
    exact ⟨_, rfl, take_taken hn (by rw [← h'.1])⟩
  | ReadTilClose t =>
    have h' : ((read t n).1, HttpBody.ReadTilClose (c := c) (read t n).2) = (.ok bs, b') := h
    simp only [Prod.mk.injEq] at h'
    rw [← Option.some.inj hu, ← h'.2]
    refine ⟨_, rfl, ?_⟩
    have hst := (LawfulReader.read_step t n hn)
    rw [h'.1] at hst
    have := hst.split
    rw [this, bytesOf_map]

/-- A body of known length, read with a buffer of two bytes. -/
example : ∀ c : Cfg,
    ((read (HttpBody.new c none (some 3) (BufReader.new c (⟨[.data b!"abcde"]⟩ : Wire))) 2).1,
      (read (HttpBody.new c none (some 3) (BufReader.new c (⟨[.data b!"abcde"]⟩ : Wire))) 2).2.under.map (fun s => bytesOf (trace s))) =
      (.ok b!"ab", some b!"cde") := by
  rintro ⟨_ | _⟩ <;> decide +kernel

end

theorem read_single {σ : Type} [LawfulReader σ] {u : σ} {a : UInt8} {t : List Ev} (h : trace u = .byte a :: t) :
    ∃ u', read u 1 = (.ok [a], u') ∧ trace u' = t := by
  have hst := LawfulReader.read_step u 1 (by decide)
  rcases hr : read u 1 with ⟨r, u'⟩
  rw [hr, h] at hst
  refine ⟨u', ?_⟩
  generalize ht : trace u' = t' at hst
  generalize hw : Ev.byte a :: t = w at hst
  cases hst with
  | eof => simp at hw
  | fault => simp at hw
  | data bs t n h1 h2 =>
    rcases bs with _ | ⟨x, _ | ⟨y, ys⟩⟩
    · exact absurd rfl h1
    · simp at hw
      rw [hw.1, hw.2]; exact ⟨rfl, rfl⟩
    · simp at h2

theorem numeral_zeros (k : Nat) : Numeral 16 (List.replicate (k + 1) 48) 0 := by
  induction k with
  | zero => exact .one (.dec 0 (by decide) (by decide))
  | succ k ih =>
    rw [List.replicate_succ']
    exact .snoc ih (.dec 0 (by decide) (by decide))

/-- False in full: there is no bound on what a read takes beside what it gives, in either build. (Before the read gives
anything, all of the size line is in memory.) -/
theorem C128_size_false (c : Cfg) (bound : Nat) :
    ∃ bytes s b', (HttpBody.new c (some b!"chunked") none (BufReader.new c (⟨[.data bytes]⟩ : Wire))).under = some s ∧
      read (HttpBody.new c (some b!"chunked") none (BufReader.new c (⟨[.data bytes]⟩ : Wire))) 1 = (.ok b!"a", b') ∧
      ∃ s', b'.under = some s' ∧ (bytesOf (trace s')).length + bound < (bytesOf (trace s)).length := by
  let l := List.replicate (bound + 1) (48 : UInt8) ++ [49]
  have hl : UnsignedText 16 l 1 := .inl (.snoc (numeral_zeros bound) (.dec 1 (by decide) (by decide)))
  let s := BufReader.new c (⟨[.data (l ++ [13, 10] ++ b!"a")]⟩ : Wire)
  have ht : trace s = (l ++ [13, 10]).map .byte ++ [.byte 97] := by
    rw [BufReader.trace_new]
    show List.flatMap WireEv.events [.data _] = _
    simp [WireEv.events]
  have hraw : RawLine l := unsignedText_rawLine hl
  obtain ⟨u, s1, h1, h2⟩ := ((C07_size_line c s l [.byte 97] hraw (by rw [ht]; exact delivers_map c _ _)).1 1).2 ⟨hl, by decide, by decide⟩
  obtain ⟨u', hr, hu'⟩ := read_single h2
  refine ⟨_, s, .Chunked { contentLength := none, stream := none, chunk := some ⟨u', 0⟩, lost := none }, rfl, ?_, u', rfl, ?_⟩
  · show ((HttpChunkedBody.readImpl (c := c) { contentLength := none, stream := some s, chunk := none, lost := none } 1).1,
      HttpBody.Chunked (HttpChunkedBody.readImpl (c := c) { contentLength := none, stream := some s, chunk := none, lost := none } 1).2) = _
    rw [C127_step]
    unfold HttpChunkedBody.step
    dsimp only
    rw [h1]
    dsimp only
    rw [C127_step]
    unfold HttpChunkedBody.step
    dsimp only
    have : read (⟨u, 1⟩ : Take (BufReader c Wire)) 1 = (.ok [97], ⟨u', 0⟩) := by
      rw [Take.read_def]
      unfold Take.readImpl
      simp [hr]
    rw [this]
  · rw [hu', ht]
    rw [bytesOf_map]
    have h0 : (bytesOf []).length = 0 := rfl
    simp [l]
    omega

end HttpIo
