import Verif.Spec.CutAnswer
import Verif.Props.GotFrom
import Verif.Props.CutUpload

/-! C198: an answer that breaks off on its way to the client. -/

namespace HttpIo
open Spec

/-- A chunk of which at least the size is there: its data. -/
theorem dechunks_data (c : Cfg) (stop : Option Err) {size : Bytes} {n : Nat} (h : UnsignedText 16 size n) (hn : n < 2 ^ 64) (h0 : n ≠ 0) (w : Bytes) :
    ∃ d r, Dechunks c stop (size ++ [13, 10] ++ w) d r ∧ w.take n <+: d := by
  by_cases h1 : w.length < n
  · exact ⟨w, _, .short h hn h1, List.take_prefix _ _⟩
  have hl : (w.take n).length = n := by rw [List.length_take]; omega
  have hne : w.take n ≠ [] := fun e => by rw [e] at hl; simp at hl; omega
  have hu : UnsignedText 16 size (w.take n).length := by rw [hl]; exact h
  by_cases h2 : (w.drop n).length < 2
  · have := Dechunks.tail (c := c) (stop := stop) hu hne (by rw [hl]; exact hn) h2
    rw [List.append_assoc, List.take_append_drop] at this
    exact ⟨_, _, this, List.prefix_refl _⟩
  · obtain ⟨d, r, hd⟩ := C185_total c stop ((w.drop n).drop 2)
    have := Dechunks.chunk (ch := ⟨size, w.take n, (w.drop n).take 2⟩) ⟨hu, hne, by rw [hl]; exact hn, by rw [List.length_take]; omega⟩ hd
    have e : Chunk.bytes ⟨size, w.take n, (w.drop n).take 2⟩ ++ (w.drop n).drop 2 = size ++ [13, 10] ++ w := by
      unfold Chunk.bytes
      dsimp only
      rw [List.append_assoc (size ++ [13, 10] ++ _), List.take_append_drop, List.append_assoc, List.take_append_drop]
    rw [e] at this
    exact ⟨_, _, this, List.prefix_append _ _⟩

/-- More bytes, more data. -/
theorem dechunks_more {c : Cfg} {stop : Option Err} {x d : Bytes} {r : Option Err} (h : Dechunks c stop x d r) (back : Option Err) (z : Bytes) :
    ∃ d0 r0, Dechunks c back (x ++ z) d0 r0 ∧ d <+: d0 := by
  have easy : ∀ x : Bytes, ∃ d0 r0, Dechunks c back x d0 r0 ∧ [] <+: d0 := fun x => by
    obtain ⟨d0, r0, h0⟩ := C185_total c back x
    exact ⟨d0, r0, h0, List.nil_prefix⟩
  induction h with
  | last | unended | blank | noText | noSize => exact easy _
  | chunk hs _ ih =>
    obtain ⟨d0, r0, h0, h1⟩ := ih
    exact ⟨_, r0, by rw [List.append_assoc]; exact .chunk hs h0, (List.prefix_append_right_inj _).2 h1⟩
  | @short size d n h1 h2 h3 =>
    obtain ⟨d0, r0, h4, h5⟩ := dechunks_data c back h1 h2 (by omega) (d ++ z)
    refine ⟨d0, r0, by rw [List.append_assoc]; exact h4, List.IsPrefix.trans ?_ h5⟩
    rw [List.take_append, List.take_of_length_le (by omega)]
    exact List.prefix_append _ _
  | @tail size d x h1 h2 h3 h4 =>
    obtain ⟨d0, r0, h5, h6⟩ := dechunks_data c back h1 h3 (by have := List.length_pos_iff.2 h2; omega) (d ++ (x ++ z))
    refine ⟨d0, r0, by rw [List.append_assoc, List.append_assoc]; exact h5, ?_⟩
    rwa [List.take_left'] at h6
    rfl

/-- More bytes after the end are no part of it. -/
theorem dechunks_whole {c : Cfg} {stop : Option Err} {x d : Bytes} (h : Dechunks c stop x d none) (back : Option Err) (z : Bytes) :
    Dechunks c back (x ++ z) d none := by
  generalize hr : (none : Option Err) = r at h
  induction h with
  | last h => rw [List.append_assoc]; exact .last h
  | chunk hs _ ih => rw [List.append_assoc]; exact .chunk hs (ih hr)
  | short | tail | unended | blank | noText | noSize => simp at hr

section
variable [CaseMap] {c : Cfg}

/-- The same for any body. -/
theorem replyBody_more {stop : Option Err} {hist headers : List (Bytes × Bytes)} {rest d : Bytes} {r : Option Err} (hk : KeepsLast hist headers)
    (h : ReplyBody c stop hist rest d r) (back : Option Err) (z : Bytes) :
    ∃ d0 r0, ReplyBody c back hist (rest ++ z) d0 r0 ∧ d <+: d0 ∧ (ShownWhole headers d r → d0 = d ∧ r0 = none) := by
  cases h with
  | told h =>
    cases h with
    | chunked h1 h2 =>
      have hm := (hk.2 _ _).2 h1
      cases r with
      | none =>
        exact ⟨_, _, .told (.chunked h1 (dechunks_whole h2 back z)), List.prefix_refl _, fun _ => ⟨rfl, rfl⟩⟩
      | some e =>
        obtain ⟨d0, r0, h3, h4⟩ := dechunks_more h2 back z
        refine ⟨d0, r0, .told (.chunked h1 h3), h4, fun hw => ?_⟩
        cases hw with
        | limited h => exact absurd hm h
    | @limited v n h1 h2 h3 =>
      refine ⟨_, _, .told (.limited h1 h2 h3), ?_, fun hw => ?_⟩
      · rw [List.take_append]; exact List.prefix_append _ _
      · have hn : (rest.take n).length = n := by
          generalize (if rest.length < n then stop else none) = r at hw
          cases hw with
          | chunked h => exact absurd ((hk.2 _ _).1 h) h1
          | limited _ h4 h5 =>
            have e1 := (mapGet_iff hk.1 _ _).2 h4
            rw [(mapGet_iff hk.1 _ _).2 ((hk.2 _ _).2 h2), Option.some.injEq] at e1
            subst e1
            exact unsignedText_same h5 h3
        have hle : n ≤ rest.length := by rw [List.length_take] at hn; omega
        rw [List.take_append_of_le_length hle, if_neg (by rw [List.length_append]; omega)]
        exact ⟨rfl, rfl⟩
  | tilClose h =>
    refine ⟨_, _, .tilClose h, List.prefix_append _ _, fun hw => ?_⟩
    cases hw with
    | chunked h1 => exact absurd ((hk.2 _ _).1 h1) (h.1)
    | limited _ h1 => exact absurd ((hk.2 _ _).1 h1) (h.2 _)

/-! ### C198 -/

/-- Of any bytes that a peer sends, a beginning reaches the client. If the client makes a response of it then all of the bytes would have
been made a response, with the same version, status and headers, and with a body that begins with the one it has got; and the body it
has got is the whole one if it is shown to be. -/
theorem C198_cut {stop back : Option Err} (hstop : Final c stop) (hback : Final c back) {p out : Bytes} (hp : p <+: out) {major minor : Nat}
    {status : HttpStatus} {headers : List (Bytes × Bytes)} {d : Bytes} {r : Option Err}
    (h : GotFrom c stop p (.response major minor status headers d r)) {g : Got} (hg : GotFrom c back out g) :
    ∃ d0 r0, g = .response major minor status headers d0 r0 ∧ d <+: d0 ∧ (ShownWhole headers d r → d0 = d ∧ r0 = none) := by
  obtain ⟨z, rfl⟩ := hp
  cases h with
  | @response line _ _ code hist rest _ _ _ _ h1 h2 h3 h4 h5 =>
    obtain ⟨d0, r0, k1, k2, k3⟩ := replyBody_more h4 h5 back z
    obtain ⟨raw, e1, e2, e3, e4⟩ := h2
    have hb := delivers_bytesOf e3
    have hs : bytesOf (endEvents stop) = [] := by cases stop <;> rfl
    rw [bytesOf_map, bytesOf_map, hs, List.append_nil, List.append_nil] at hb
    have hd : Delivers c ((p ++ z).map .byte ++ endEvents back) (blockBytes (line :: raw)) ((rest ++ z).map .byte ++ endEvents back) := by
      rw [hb, List.append_assoc, List.map_append, List.append_assoc]
      exact delivers_map c _ _
    exact ⟨d0, r0, C191_unique hback hg (.response h1 ⟨raw, e1, e2, hd, e4⟩ h3 h4 k1), k2, k3⟩

end

/-- A chunked answer. -/
theorem chunked_got (c : Cfg) (stop : Option Err) {rest d : Bytes} {r : Option Err} (h : Dechunks c stop rest d r) :
    @GotFrom asciiCase c stop (b!"HTTP/1.1 200 OK\r\nTransfer-Encoding: chunked\r\n\r\n" ++ rest)
      (.response 1 1 .OK [(b!"transfer-encoding", b!"chunked")] d r) := by
  let _ := asciiCase
  refine .response (line := b!"HTTP/1.1 200 OK") (code := 200) (hist := [(b!"Transfer-Encoding", b!"chunked")]) (rest := rest) ?_ ?_
    (statusFor_fromCode 200) (keepsLast_insertAll [(b!"Transfer-Encoding", b!"chunked")]) (.told (.chunked ?_ h))
  · have hv : parseStatusLine b!"HTTP/1.1 200 OK" = .ok (⟨1, 1⟩, .OK) := by decide +kernel
    obtain ⟨code, hcode, hst⟩ := (statusLine_ok_iff (by decide +kernel) _ _).1 hv
    have hlt : code < 2 ^ 32 := by obtain ⟨_, _, _, _, _, _, _, _, _, _, _, h⟩ := hcode; exact h
    have := congrArg (fun st => st.toCode.toNat) hst
    rw [C01_code_lossless] at this
    have h2 : (UInt32.ofNat code).toNat = code := by simp [Nat.mod_eq_of_lt hlt]
    rw [h2] at this
    rw [← this] at hcode
    exact hcode
  · refine ⟨[b!"Transfer-Encoding: chunked"], rawLine_of (by decide) (by decide) (by decide), ?_, ?_, ?_, by decide, ?_⟩
    · intro l hl
      simp only [List.mem_cons, List.not_mem_nil, or_false] at hl
      subst hl; exact rawLine_of (by decide) (by decide) (by decide)
    · rw [List.map_append, List.append_assoc]; exact delivers_map c (blockBytes [b!"HTTP/1.1 200 OK", b!"Transfer-Encoding: chunked"]) (rest.map .byte ++ endEvents stop)
    · exact Folded.line (first := b!"Transfer-Encoding: chunked") (conts := []) (rest := []) (by simp) (by simp) .nil
    · rintro v ⟨pre, k, post, h1, h2, _⟩
      have hk : (k, v) ∈ [(b!"Transfer-Encoding", b!"chunked")] := by rw [h1]; simp
      simp only [List.mem_cons, List.not_mem_nil, or_false, Prod.mk.injEq] at hk
      rw [utf8_contentLength] at h2
      rcases hk with ⟨rfl, _⟩; exact absurd h2 (by decide)
  · refine ⟨[], b!"Transfer-Encoding", [], by rw [show utf8 "chunked" = b!"chunked" by decide +kernel]; rfl, ?_, by simp⟩
    dsimp only
    rw [show utf8 "transfer-encoding" = b!"transfer-encoding" by decide +kernel]; decide

/-- Witness for `C198_cut`: of a chunked answer all but the last two bytes has come, and the connection is reset: the body is shown to be
whole, so all of the answer has no more. Had it been reset within the data, the body would have been a beginning. -/
example (c : Cfg) : let _ := asciiCase
    let head := b!"HTTP/1.1 200 OK\r\nTransfer-Encoding: chunked\r\n\r\n"
    let out := head ++ b!"2\r\nab\r\n0\r\n\r\n"
    let headers := [(b!"transfer-encoding", b!"chunked")]
    let stop := some (Err.io (.other 5))
    GotFrom c stop (head ++ b!"2\r\nab\r\n0\r\n") (.response 1 1 .OK headers b!"ab" none) ∧ ShownWhole headers b!"ab" none ∧
      GotFrom c stop (head ++ b!"2\r\na") (.response 1 1 .OK headers b!"a" (some (cutError c stop))) ∧
      ∀ g, GotFrom c none out g → g = .response 1 1 .OK headers b!"ab" none := by
  intro _ head out headers stop
  have hhex : ∀ (t : Bytes) (n : Nat), parseHex64 t = .ok n → UnsignedText 16 t n := fun t n h => ((C07_hex_parse t n).1 h).1
  have hfin : Final c stop := by
    intro e h
    simp only [stop, Option.some.injEq] at h
    subst h
    rcases c with ⟨_ | _⟩ <;> simp [Retried]
  have h1 : GotFrom c stop (head ++ b!"2\r\nab\r\n0\r\n") (.response 1 1 .OK headers b!"ab" none) :=
    chunked_got c stop (.chunk (ch := ⟨b!"2", b!"ab", b!"\r\n"⟩) (rest := b!"0\r\n") (d := []) ⟨hhex _ _ (by decide +kernel), by decide, by decide, rfl⟩
      (.last (size := b!"0") (rest := []) (hhex _ _ (by decide +kernel))))
  have hw : ShownWhole headers b!"ab" none := .chunked (by
    rw [show utf8 "transfer-encoding" = b!"transfer-encoding" by decide +kernel, show utf8 "chunked" = b!"chunked" by decide +kernel]
    exact List.mem_singleton.2 rfl)
  refine ⟨h1, hw, chunked_got c stop (.short (size := b!"2") (d := b!"a") (n := 2) (hhex _ _ (by decide +kernel)) (by decide) (by decide)),
    fun g hg => ?_⟩
  obtain ⟨d0, r0, rfl, _, e⟩ := C198_cut hfin (by intro e h; simp at h) ⟨b!"\r\n", rfl⟩ h1 hg
  obtain ⟨rfl, rfl⟩ := e hw
  rfl

end HttpIo
