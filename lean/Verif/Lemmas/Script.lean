import Verif.Props.Reuse

/-! A scripted peer that answers the k-th request with the k-th of some answers, as a witness for the theorems about
conversations. Not in the repository. -/

namespace HttpIo
open Spec

/-- Requests are `n` bytes long. -/
def script (n : Nat) (answers : List Bytes) (idle : Option Err) (seg : Nat) : Talker where
  reply w := (answers.take (w.length / n)).flatten
  mono w x := by
    rw [List.length_append]
    obtain ⟨t, ht⟩ := List.take_prefix_take_left (l := answers)
      (Nat.div_le_div_right (c := n) (Nat.le_add_right w.length x.length))
    rw [← ht, List.flatten_append]; exact List.prefix_append _ _
  idle := idle
  seg := seg
  sink := ⟨[], 0, [.accept 3, .accept 1]⟩
  got := []
  got_le := List.nil_prefix
  dead := false
  dead_got := by simp

/-- What an idle scripted peer gives. -/
def idleEvs : Option Err → List Ev
  | some e => [.fault e]
  | none => []

theorem script_peer (n : Nat) (answers : List Bytes) (idle : Option Err) (seg : Nat) (w : Bytes) :
    PeerSocket.peer (script n answers idle seg) w = ((answers.take (w.length / n)).flatten).map .byte ++ idleEvs idle := by
  show Talker.said _ _ = _
  unfold Talker.said
  cases idle <;> rfl

theorem script_taken (n : Nat) (answers : List Bytes) (idle : Option Err) (seg : Nat) :
    PeerSocket.taken (script n answers idle seg) = [] := by
  show Talker.heard _ = []
  unfold Talker.heard Talker.past
  cases idle <;> rfl

theorem script_serves {κ : Type} (said : κ → List Ev → Prop) {n : Nat} (hn : 0 < n) (idle : Option Err) (seg : Nat)
    (list : List (Ask × κ × Bytes)) (hlen : ∀ x ∈ list, ∀ bytes, x.1.Bytes bytes → bytes.length = n)
    (hsaid : ∀ x ∈ list, said x.2.1 (x.2.2.map .byte)) :
    Serves said (PeerSocket.peer (script n (list.map (·.2.2)) idle seg)) (idleEvs idle) [] []
      (list.map fun x => (x.1, x.2.1)) := by
  have key : ∀ (rest : List (Ask × κ × Bytes)) (pre : List Bytes) (w : Bytes), w.length = n * pre.length →
      (∀ x ∈ rest, ∀ bytes, x.1.Bytes bytes → bytes.length = n) → (∀ x ∈ rest, said x.2.1 (x.2.2.map .byte)) →
      Serves said (PeerSocket.peer (script n (pre ++ rest.map (·.2.2)) idle seg)) (idleEvs idle) w (pre.flatten.map .byte)
        (rest.map fun x => (x.1, x.2.1)) := by
    intro rest
    induction rest with
    | nil => intros; trivial
    | cons x rest ih =>
      intro pre w hw h1 h2 bytes hb
      have hl : (w ++ bytes).length = n * (pre ++ [x.2.2]).length := by
        rw [List.length_append, hw, h1 x (by simp) bytes hb, List.length_append, Nat.mul_add]; simp
      refine ⟨x.2.2.map .byte, ?_, h2 x (by simp), ?_⟩
      · rw [script_peer, hl, Nat.mul_div_cancel_left _ hn]
        have : ∀ r, (pre ++ x.2.2 :: r).take (pre ++ [x.2.2]).length = pre ++ [x.2.2] := by
          intro r
          rw [show pre ++ x.2.2 :: r = (pre ++ [x.2.2]) ++ r by simp, List.take_left]
        rw [List.map_cons, this]
        simp
      · have := ih (pre ++ [x.2.2]) (w ++ bytes) hl (fun y hy => h1 y (by simp [hy])) (fun y hy => h2 y (by simp [hy]))
        simpa using this
  exact key list [] [] rfl hlen hsaid

/-- A peer whose transport takes what is written meets the assumptions of the theorems about conversations. -/
theorem talker_setting (c : Cfg) (idle : Option Err) (t : Talker) (ht : t.idle = idle) (hdead : t.dead = false)
    (hplan : ∀ a ∈ t.sink.plan, ∃ n, a = .accept (n + 1)) :
    ∃ P : Talker → Prop, Reliable c P ∧
      (∀ s n, P s → idleEvs idle <:+ trace (read s n).2 → P (read s n).2) ∧ (∀ b t, idleEvs idle ≠ .byte b :: t) ∧ P t := by
  refine ⟨_, talker_reliable c idle, ?_, ?_, ht, hdead, fun a ha => .inl (hplan a ha)⟩
  · intro s n hs hi
    have hk : (read s n).2.sink = s.sink := by
      rcases s.read_cases n with ⟨_, e, _, _, _, _, h, _⟩ | ⟨_, _, h⟩ | ⟨p, q, _, _, _, _, _, _, h, _⟩ <;> rw [h]
    have hd : (read s n).2.idle = idle ∧ (read s n).2.dead = false := by
      rcases s.read_cases n with ⟨h1, e, h2, h3, h4, h5, _, _, h6, h7⟩ | ⟨_, _, h⟩ | ⟨p, q, _, _, _, _, _, _, _, _, h1, h2⟩
      · rw [Talker.trace_eq, h5, h1] at hi
        unfold Talker.tail at hi
        rw [h6, h7, h2] at hi
        have : idle = some e := by rw [← hs.1, h2]
        rw [this] at hi
        simp [idleEvs] at hi
      · rw [h]; exact ⟨hs.1, hs.2.1⟩
      · rw [h1, h2]; exact ⟨hs.1, hs.2.1⟩
    exact ⟨hd.1, hd.2, by rw [hk]; exact hs.2.2⟩
  · intro b t; cases idle <;> simp [idleEvs]

/-- A scripted peer before the first request meets the assumptions of the theorems about conversations. -/
theorem script_setting (c : Cfg) (n : Nat) (answers : List Bytes) (idle : Option Err) (seg : Nat) :
    ∃ P : Talker → Prop, Reliable c P ∧
      (∀ s n, P s → idleEvs idle <:+ trace (read s n).2 → P (read s n).2) ∧ (∀ b t, idleEvs idle ≠ .byte b :: t) ∧
      P (script n answers idle seg) ∧ wire (script n answers idle seg) = sent (script n answers idle seg) ∧
      trace (script n answers idle seg) = idleEvs idle := by
  obtain ⟨P, h1, h2, h3, h4⟩ := talker_setting c idle (script n answers idle seg) rfl rfl (by
    intro a ha
    simp [script] at ha
    rcases ha with rfl | rfl
    · exact ⟨2, rfl⟩
    · exact ⟨0, rfl⟩)
  refine ⟨P, h1, h2, h3, h4, rfl, ?_⟩
  rw [Talker.trace_eq]
  have : (script n answers idle seg).rest = [] := by
    unfold Talker.rest script
    dsimp only
    rw [show wire (σ := Sink) ⟨[], 0, [.accept 3, .accept 1]⟩ = [] from rfl]; simp
  rw [this]
  cases idle <;> rfl

/-- The peer sends at most 8 KiB in all, and whatever is at hand in one segment. -/
def Talker.Brief (s : Talker) : Prop := 8191 ≤ s.seg ∧ ∀ w, (s.reply w).length ≤ 8192

theorem Talker.brief_write (s : Talker) (buf : Bytes) (h : s.Brief) : (write s buf).2.Brief := by
  rw [Talker.write_def]
  unfold Talker.writeImpl
  split <;> exact h

theorem Talker.brief_kept : Kept Talker.Brief :=
  ⟨Talker.brief_write, fun s h => by
    rw [Talker.flush_def]
    unfold Talker.flushImpl
    split <;> exact h, fun _ _ _ h => defaultWriteAll_kept (τ := Talker) Talker.brief_write h⟩

theorem Talker.brief_read (s : Talker) (n : Nat) (h : s.Brief) : (read s n).2.Brief := by
  show (s.readImpl n).2.Brief
  unfold Talker.readImpl
  split
  · split <;> exact h
  · exact h

/-- After a large read nothing but the idle peer is left. -/
theorem Talker.brief_rest (s : Talker) (n : Nat) (hn : 8192 ≤ n) (h : s.Brief) : (read s n).2.rest = [] := by
  rcases hr : s.rest with _ | ⟨b, t⟩
  · rcases s.read_cases n with ⟨_, e, _, _, _, h1, _⟩ | ⟨_, _, h1⟩ | ⟨p, q, h1, _, _, _, h2, _⟩
    · rw [h1, hr]
    · rw [h1]; exact hr
    · rw [h2]; rw [hr] at h1; exact (List.append_eq_nil_iff.1 h1.symm).2
  · have hlen : s.rest.length ≤ 8192 := by
      have := h.2 (wire s.sink)
      rw [← s.got_rest, List.length_append] at this; omega
    have htake : (read s n).1 = .ok s.rest := by
      show (s.readImpl n).1 = _
      unfold Talker.readImpl
      split
      · rename_i h1; rw [hr] at h1; simp at h1
      · dsimp only
        rw [List.take_of_length_le]
        have := h.1
        omega
    rcases s.read_cases n with ⟨h1, _⟩ | ⟨h1, _⟩ | ⟨p, q, h1, _, _, h2, h3, _⟩
    · rw [hr] at h1; simp at h1
    · rw [hr] at h1; simp at h1
    · rw [htake] at h2
      simp only [Except.ok.injEq] at h2
      rw [h3]
      have := congrArg List.length h1
      rw [h2, List.length_append] at this
      exact List.length_eq_zero_iff.1 (by omega)

/-- A scripted peer whose answers come in one segment each meets the assumptions, and large reads take all there is. -/
theorem script_together (c : Cfg) (n : Nat) (answers : List Bytes) (idle : Option Err) (seg : Nat) (hseg : 8191 ≤ seg)
    (hshort : answers.flatten.length ≤ 8192) :
    ∃ P : Talker → Prop, Reliable c P ∧
      (∀ s n, P s → idleEvs idle <:+ trace (read s n).2 → P (read s n).2) ∧ (∀ b t, idleEvs idle ≠ .byte b :: t) ∧
      P (script n answers idle seg) ∧ wire (script n answers idle seg) = sent (script n answers idle seg) ∧
      trace (script n answers idle seg) = idleEvs idle ∧ Together P (idleEvs idle) := by
  obtain ⟨P, hr, hP, hidle, hPs, hfl, hpend⟩ := script_setting c n answers idle seg
  have hk := Talker.brief_kept
  refine ⟨fun s => P s ∧ s.Brief, ⟨fun s b h => ⟨hr.write_next s b h.1, hk.write s b h.2⟩,
    fun s h => ⟨hr.flush_next s h.1, hk.flush s h.2⟩, fun s b h => ⟨hr.writeAll_next s b h.1, hk.writeAll c s b h.2⟩,
    fun s b h => hr.write_ok s b h.1, fun s h => hr.flush_ok s h.1, fun s b h => hr.writeAll_ok s b h.1⟩,
    fun s n h hi => ⟨hP s n h.1 hi, s.brief_read n h.2⟩, hidle, ⟨hPs, hseg, fun w => ?_⟩, hfl, hpend, ?_⟩
  · refine Nat.le_trans ?_ hshort
    show ((answers.take _).flatten).length ≤ _
    obtain ⟨t, ht⟩ := List.take_prefix (w.length / n) answers
    have := congrArg (fun l => l.flatten.length) ht
    simp only [List.flatten_append, List.length_append] at this
    omega
  · intro s m hm h _
    rw [Talker.trace_eq, s.brief_rest m hm h.2]
    unfold Talker.tail NotCrLf
    constructor <;> split <;> simp

/-- A GET request for `sampleUrl`. -/
def sampleAsk (sizes : List Nat) : Ask := ⟨false, sampleUrl, [], sizes⟩

theorem sampleAsk_proper (sizes : List Nat) : let _ := asciiCase; (sampleAsk sizes).Proper :=
  { ascii := by unfold sampleAsk; dsimp only; rw [← isAscii_iff]; decide
    scheme := .inr (by unfold SecureHttp sampleAsk; rw [utf8_https]; exact sameText_refl _)
    host := ⟨_, rfl⟩
    small := by simp [written, sampleAsk]
    bodiless := fun _ => rfl }

theorem sampleAsk_bytes (sizes : List Nat) (bytes : Bytes) (h : (sampleAsk sizes).Bytes bytes) : bytes.length = 62 := by
  obtain ⟨host, h1, h2⟩ := h
  simp only [sampleAsk, sampleUrl, Option.some.injEq] at h1
  subst h1
  rw [if_neg (by simp [sampleAsk])] at h2
  rw [h2]
  have : (requestHead .Get (requestTarget { sampleUrl with query := none }) (standardHeaders .Get b!"h")).length = 62 := by
    decide +kernel
  exact this

/-- A connector to one peer. -/
def oneConnector (s : Talker) : StreamConnector Unit Unit Talker := ⟨fun _ w => (.ok s, w), fun _ w => (.ok (), w)⟩

/-- `200 OK` with this body and its length. -/
def okAnswer (body : Bytes) : Answer := ⟨.OK, ⟨[(b!"content-length", showDec body.length)]⟩, body⟩

theorem okAnswer_proper (body : Bytes) (h : body.length < 2 ^ 64) : let _ := asciiCase; (okAnswer body).Proper := by
  intro _
  have hl : LengthText (showDec body.length) body.length := lengthText_iff.1 (fromStrRadix_showDec (by unfold u64Max; omega))
  have hraw := unsignedText_rawLine hl.1
  refine ⟨⟨by unfold SortedNames okAnswer; simp, ?_, ?_⟩, .limited (by simp [okAnswer]) (by simp [okAnswer]) hl⟩
  · intro kv hkv; simp [okAnswer] at hkv; subst hkv; dsimp only; decide
  · intro kv hkv
    simp only [okAnswer, List.mem_cons, List.not_mem_nil, or_false] at hkv
    subst hkv
    refine ⟨isText_ascii ?_, ?_, ?_, ?_, hraw.2.2, hraw.2.1⟩ <;> dsimp only
    · decide
    · decide
    · unfold HasCrLf; decide
    · rw [← startsBlank_iff]; decide

theorem answer_sent (c : Cfg) (a : Answer) : a.Sent c ((answerBytes a).map .byte) := by
  refine ⟨_, List.map_append, ?_⟩
  have := delivers_map c (responseHead a.status.display a.headers.entries) []
  rwa [List.append_nil] at this

/-- `200 OK` with a chunked body of one chunk. -/
def chunkedAnswer : ChunkedAnswer :=
  ⟨.OK, ⟨[(b!"transfer-encoding", b!"chunked")]⟩, [⟨b!"3", b!"abc", [13, 10]⟩], b!"0"⟩

theorem chunkedAnswer_proper : let _ := asciiCase; chunkedAnswer.Proper := by
  intro _
  have h3 : UnsignedText 16 b!"3" 3 := ((fromStrRadix_iff (max := 10) (by omega) (by omega)).1 (by decide)).1
  have h0 : UnsignedText 16 b!"0" 0 := ((fromStrRadix_iff (max := 10) (by omega) (by omega)).1 (by decide)).1
  refine ⟨⟨by unfold SortedNames chunkedAnswer; simp, ?_, ?_⟩, ?_, .chunked (by simp [chunkedAnswer]), ?_, h0⟩
  · intro kv hkv; simp [chunkedAnswer] at hkv; subst hkv; dsimp only; decide
  · intro kv hkv
    simp only [chunkedAnswer, List.mem_cons, List.not_mem_nil, or_false] at hkv
    subst hkv
    exact ⟨isText_ascii (by decide), by decide, by unfold HasCrLf; decide, by rw [← startsBlank_iff]; decide,
      isText_ascii (by decide), by unfold HasCrLf; decide⟩
  · intro v hv; simp [chunkedAnswer] at hv
  · intro ch hch
    simp only [chunkedAnswer, List.mem_cons, List.not_mem_nil, or_false] at hch
    subst hch
    exact ⟨⟨h3, by simp, by simp, rfl⟩, rfl⟩

/-- The bytes of a chunked response. -/
def chunkedAnswerBytes (a : ChunkedAnswer) : Bytes :=
  responseHead a.status.display a.headers.entries ++ chunkedBytes a.chunks a.last ++ [13, 10]

theorem chunkedAnswer_sent (c : Cfg) (a : ChunkedAnswer) : a.Sent c ((chunkedAnswerBytes a).map .byte) := by
  refine ⟨_, _, by unfold chunkedAnswerBytes; rw [List.map_append, List.map_append]; rfl, ?_, ?_⟩
  · have := delivers_map c (responseHead a.status.display a.headers.entries) []
    rwa [List.append_nil] at this
  · have := deliversChunked_map c a.chunks a.last []
    rwa [List.append_nil] at this

end HttpIo
