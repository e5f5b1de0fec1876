import Verif.Spec.Total
import Verif.Props.Body
import Verif.Props.Codes
import Verif.Props.Breaks

/-! C185: what a chunked body gives, whatever the bytes are. -/

namespace HttpIo
open Spec

theorem chunkT_anyLine {c : Cfg} {line : Bytes} (hl : ¬ HasCrLf line) (t : List Ev) :
    chunkT c [] none ((line ++ [13, 10]).map .byte ++ t) =
      if line = [] then [.fault (c.toIo .unexpectedEof)]
      else if validUtf8 line then
        match fromStrRadix 16 u64Max line with
        | none => [.fault (c.toIo .parseInt)]
        | some size => if size = 0 then [] else chunkT c [] (some size) t
      else [.fault (c.toIo .utf8)] := by
  rw [chunkT_size]
  unfold expectNextT
  rw [innerNextT_line hl (delivers_map c _ t)]
  unfold lineOutcome
  by_cases h0 : line = []
  · subst h0; rfl
  · rw [if_neg (by simpa using h0), if_neg h0]
    by_cases hv : validUtf8 line = true
    · rw [if_pos hv, if_pos hv]; dsimp only; cases fromStrRadix 16 u64Max line <;> rfl
    · rw [if_neg hv, if_neg hv]

theorem ended_of_none {c : Cfg} : Ended c (endEvents none) := by intro ev h; exact absurd h (by simp [endEvents])

theorem fails_of_some {c : Cfg} {e : Err} (h : Final c (some e)) : Fails c (endEvents (some e)) e [] :=
  ⟨h e rfl, [], rfl, by simp [Ended]⟩

/-- The events of a chunked body over these bytes. -/
theorem dechunks_trace {c : Cfg} {x d : Bytes} {stop r : Option Err} (hf : Final c stop) (h : Dechunks c stop x d r) :
    chunkT c [] none (x.map .byte ++ endEvents stop) = d.map .byte ++ endEvents r := by
  have num : ∀ {size : Bytes} {n : Nat}, UnsignedText 16 size n → n < 2 ^ 64 → ∀ t, chunkT c [] none ((size ++ [13, 10]).map .byte ++ t) =
      if n = 0 then [] else chunkT c [] (some n) t := by
    intro size n hs hn t
    have hr := unsignedText_rawLine hs
    rw [chunkT_anyLine hr.2.1, if_neg hr.1, if_pos ((validUtf8_iff _).2 hr.2.2), parseSize hs hn]
  induction h with
  | last h => rw [List.map_append, List.append_assoc, num h (by omega)]; rfl
  | @chunk ch rest d r h _ ih =>
    obtain ⟨g1, g2, g3, g4⟩ := h
    have : ch.bytes ++ rest = (ch.size ++ [13, 10]) ++ (ch.data ++ (ch.tail ++ rest)) := by simp [Chunk.bytes]
    rw [this, List.map_append, List.append_assoc, num g1 g3, if_neg (by have := List.length_pos_iff.2 g2; omega), List.map_append,
      List.append_assoc, chunkT_bytes (Nat.le_refl _), Nat.sub_self, chunkT_end, List.map_append, List.append_assoc, ← g4, readExactT_delivers (delivers_map c ch.tail _)]
    dsimp only
    rw [ih]; simp
  | @short size d n h1 h2 h3 =>
    rw [List.map_append, List.append_assoc, num h1 h2, if_neg (by omega), chunkT_bytes (Nat.le_of_lt h3)]
    obtain ⟨k, hk⟩ : ∃ k, n - d.length = k + 1 := ⟨n - d.length - 1, by omega⟩
    rw [hk]
    cases stop with
    | none => rw [endEvents, chunkT]; rfl
    | some e => simp [endEvents, chunkT, cutError]
  | @tail size d x h1 h2 h3 h4 =>
    rw [List.append_assoc, List.map_append, List.append_assoc, num h1 h3, if_neg (by have := List.length_pos_iff.2 h2; omega),
      List.map_append, List.append_assoc, chunkT_bytes (Nat.le_refl _), Nat.sub_self, chunkT_end]
    cases stop with
    | none => rw [readExactT_short (delivers_map c x _) h4 ended_of_none]; rfl
    | some e => rw [readExactT_fails (delivers_map c x _) h4 (fails_of_some hf)]; rfl
  | @unended q h =>
    cases stop with
    | none =>
      obtain ⟨u, hu⟩ := expectNextT_ended (delivers_map c q _) ended_of_none h
      rw [chunkT_size, hu]; rfl
    | some e =>
      rw [chunkT_size]
      unfold expectNextT
      rw [innerNextT_prefix (delivers_map c q _) [] (by simpa using h), innerNextT_fails (fails_of_some hf)]; rfl
  | blank =>
    rw [List.map_append, List.append_assoc]
    exact chunkT_anyLine (line := []) not_hasCrLf_nil _
  | @noText line rest h1 h2 =>
    have h0 : line ≠ [] := by rintro rfl; exact h2 ((validUtf8_iff _).1 rfl)
    rw [List.map_append, List.append_assoc, chunkT_anyLine h1, if_neg h0, if_neg (by rw [validUtf8_iff]; exact h2)]; rfl
  | @noSize line rest h1 h2 =>
    have hp : fromStrRadix 16 u64Max line = none := by
      cases hq : fromStrRadix 16 u64Max line with
      | none => rfl
      | some n =>
        obtain ⟨k1, k2⟩ := (fromStrRadix_iff (by omega) (by omega)).1 hq
        exact absurd k1 (h2 n (by unfold u64Max at k2; omega))
    rw [List.map_append, List.append_assoc, chunkT_anyLine h1.2.1, if_neg h1.1, if_pos ((validUtf8_iff _).2 h1.2.2), hp]; rfl

/-- Whatever the bytes are, they are one of these. -/
theorem C185_total (c : Cfg) (stop : Option Err) (x : Bytes) : ∃ d r, Dechunks c stop x d r := by
  suffices h : ∀ n, ∀ x : Bytes, x.length = n → ∃ d r, Dechunks c stop x d r from h _ x rfl
  intro n
  induction n using Nat.strongRecOn with
  | _ n ih =>
  intro x hx
  by_cases hc : HasCrLf x
  case neg => exact ⟨_, _, .unended hc⟩
  obtain ⟨line, rest, rfl, hl⟩ := hasCrLf_first hc
  by_cases h0 : line = []
  · subst h0; exact ⟨_, _, .blank⟩
  by_cases ht : IsText line
  case neg => exact ⟨_, _, .noText hl ht⟩
  by_cases hn : ∃ k, k < 2 ^ 64 ∧ UnsignedText 16 line k
  case neg => exact ⟨_, _, .noSize ⟨h0, hl, ht⟩ fun k hk hu => hn ⟨k, hk, hu⟩⟩
  obtain ⟨k, hk, hu⟩ := hn
  by_cases hz : k = 0
  · subst hz; exact ⟨_, _, .last hu⟩
  by_cases h1 : rest.length < k
  · exact ⟨_, _, .short hu hk h1⟩
  have hd : (rest.take k).length = k := by rw [List.length_take]; omega
  have hne : rest.take k ≠ [] := by intro h; rw [h] at hd; simp at hd; omega
  by_cases h2 : (rest.drop k).length < 2
  · refine ⟨rest.take k, some (cutError c stop), ?_⟩
    have := Dechunks.tail (c := c) (stop := stop) (size := line) (d := rest.take k) (x := rest.drop k) (by rw [hd]; exact hu) hne (by rw [hd]; exact hk) h2
    rwa [List.append_assoc _ (rest.take k), List.take_append_drop] at this
  · have ht2 : ((rest.drop k).take 2).length = 2 := by rw [List.length_take]; omega
    obtain ⟨d, r, hdr⟩ := ih ((rest.drop k).drop 2).length (by
      rw [← hx]; simp only [List.length_append, List.length_drop, List.length_cons, List.length_nil]; omega) _ rfl
    refine ⟨rest.take k ++ d, r, ?_⟩
    have := Dechunks.chunk (ch := ⟨line, rest.take k, (rest.drop k).take 2⟩) ⟨by rw [hd]; exact hu, hne, by rw [hd]; exact hk, ht2⟩ hdr
    have he : (Chunk.mk line (rest.take k) ((rest.drop k).take 2)).bytes ++ (rest.drop k).drop 2 = line ++ [13, 10] ++ rest := by
      simp only [Chunk.bytes, List.append_assoc, List.take_append_drop]
    rwa [he] at this

section
variable {ρ : Type} [LawfulReader ρ] [ZeroReader ρ]

/-- A chunked body over a stream of these bytes, which then ends or fails, gives exactly the data that the rules say, and then the end or the error that they
say, whatever the buffers are and however the bytes arrive. -/
theorem C185_read {c : Cfg} {x d : Bytes} {stop r : Option Err} (hf : Final c stop) (h : Dechunks c stop x d r) (n : Option Nat) (u : ρ)
    (ht : trace u = x.map .byte ++ endEvents stop) :
    (r = none → Yields (HttpBody.new c (some b!"chunked") n u) d) ∧
    ∀ e, r = some e → FailsAfter (HttpBody.new c (some b!"chunked") n u) d e := by
  have := dechunks_trace hf h
  rw [chunked_new]
  refine ⟨?_, ?_⟩
  · rintro rfl
    apply yields_of_trace
    rw [HttpBody.trace_chunked, HttpChunkedBody.trace_new, ht, this, endEvents, List.append_nil]
  · rintro e rfl
    apply failsAfter_of_trace (t := [])
    rw [HttpBody.trace_chunked, HttpChunkedBody.trace_new, ht, this, endEvents]

end

theorem endEvents_split {a b : Bytes} {p q : Option Err} (h : a.map Ev.byte ++ endEvents p = b.map Ev.byte ++ endEvents q) :
    a = b ∧ p = q := by
  induction a generalizing b with
  | nil => cases b <;> cases p <;> cases q <;> simp_all [endEvents]
  | cons y a ih =>
    cases b with
    | nil => cases p <;> cases q <;> simp [endEvents] at h
    | cons z b =>
      simp only [List.map_cons, List.cons_append, List.cons.injEq, Ev.byte.injEq] at h
      obtain ⟨h1, h2⟩ := ih h.2
      rw [h.1, h1, h2]; exact ⟨rfl, rfl⟩

/-- The rules say one thing only. -/
theorem C185_unique {c : Cfg} {x d d' : Bytes} {stop r r' : Option Err} (hf : Final c stop) (h : Dechunks c stop x d r)
    (h' : Dechunks c stop x d' r') : d = d' ∧ r = r' :=
  endEvents_split ((dechunks_trace hf h).symm.trans (dechunks_trace hf h'))

/-- What an unconforming peer may send: a chunk followed by other bytes than CR LF, a size in front of which there is a sign, one that
is cut off; and what comes of it. -/
example (c : Cfg) (stop : Option Err) : Dechunks c stop b!"2\r\nabXX+1\r\nc\r\n0\r\nmore" b!"abc" none ∧
    Dechunks c stop b!"2\r\nab\r\n5\r\nde" b!"abde" (some (cutError c stop)) ∧
    Dechunks c stop b!"2\r\nab\r\n1;x\r\nd\r\n" b!"ab" (some (sizeError c .parseInt)) := by
  have hhex : ∀ (t : Bytes) (n : Nat), parseHex64 t = .ok n → UnsignedText 16 t n := fun t n h => ((C07_hex_parse t n).1 h).1
  have h2 : UnsignedText 16 b!"2" 2 := hhex _ _ (by decide +kernel)
  refine ⟨.chunk (ch := ⟨b!"2", b!"ab", b!"XX"⟩) (rest := b!"+1\r\nc\r\n0\r\nmore") (d := b!"c") ⟨h2, by decide, by decide, rfl⟩
      (.chunk (ch := ⟨b!"+1", b!"c", b!"\r\n"⟩) (rest := b!"0\r\nmore") (d := []) ⟨hhex _ _ (by decide +kernel), by decide, by decide, rfl⟩
        (.last (size := b!"0") (rest := b!"more") (hhex _ _ (by decide +kernel)))),
    .chunk (ch := ⟨b!"2", b!"ab", b!"\r\n"⟩) (rest := b!"5\r\nde") (d := b!"de") ⟨h2, by decide, by decide, rfl⟩
      (.short (size := b!"5") (d := b!"de") (n := 5) (hhex _ _ (by decide +kernel)) (by decide) (by decide)),
    .chunk (ch := ⟨b!"2", b!"ab", b!"\r\n"⟩) (rest := b!"1;x\r\nd\r\n") (d := []) ⟨h2, by decide, by decide, rfl⟩
      (.noSize (line := b!"1;x") (rest := b!"d\r\n") ⟨by decide, by unfold HasCrLf; decide, isText_ascii (by decide)⟩ fun n hn hu => ?_)⟩
  have := (C07_hex_parse b!"1;x" n).2 ⟨hu, hn⟩
  revert this
  rw [show parseHex64 b!"1;x" = .err .parseInt by decide +kernel]; simp

end HttpIo
