import Verif.Lemmas.Head
import Verif.Lemmas.Parser
import Verif.Lemmas.Map
import Verif.Lemmas.Num
import Verif.Lemmas.Case
import Verif.Spec.Message
import Verif.Props.Codes

/-! Start lines, panics and framing of messages. -/

namespace HttpIo
open Spec

/-! ### ASCII text never panics -/

theorem isCharBoundary_ascii {s : Bytes} (h : isAscii s = true) {i : Nat} (hi : i ≤ s.length) :
    isCharBoundary s i = true := by
  unfold isCharBoundary
  by_cases h0 : i = 0
  · simp [h0]
  · rw [if_neg (by simpa using h0)]
    cases hg : s[i]? with
    | none => simp only [List.getElem?_eq_none_iff] at hg; simp; omega
    | some b =>
      have hb : b ∈ s := List.mem_of_getElem? hg
      have := (isAscii_iff s).1 h b hb
      simp only [isCont, Bool.not_eq_true', Bool.and_eq_false_iff, decide_eq_false_iff_not]
      left
      intro hle
      have := UInt8.le_iff_toNat_le.1 hle
      simp at this; omega

theorem slice_ascii {s : Bytes} (h : isAscii s = true) {a b : Nat} (hab : a ≤ b) (hb : b ≤ s.length) :
    slice s a b ≠ .panic := by
  unfold slice
  rw [if_pos]
  · simp
  · simp [hab, hb, isCharBoundary_ascii h hb, isCharBoundary_ascii h (Nat.le_trans hab hb)]

theorem Parser.expect_ascii {p : Parser} (h : isAscii p.s = true) (e : Bytes) :
    (p.expect e).1 ≠ .panic ∧ (p.expect e).2.s = p.s := by
  unfold Parser.expect
  by_cases hp : p.position ≥ p.s.length
  · rw [if_pos hp]; simp
  · rw [if_neg hp]
    have := slice_ascii h (a := p.position) (b := min p.s.length (p.position + e.length)) (by omega) (by omega)
    cases hs : slice p.s p.position (min p.s.length (p.position + e.length)) with
    | ok a => dsimp only; by_cases ha : a ≠ e
              · rw [if_pos ha]; simp
              · rw [if_neg ha]; simp
    | err => simp
    | panic => exact absurd hs this

theorem Parser.parseDigit_ascii {p : Parser} (h : isAscii p.s = true) :
    (p.parseDigit).1 ≠ .panic ∧ (p.parseDigit).2.s = p.s := by
  unfold Parser.parseDigit
  by_cases hp : p.position ≥ p.s.length
  · rw [if_pos hp]; simp
  · rw [if_neg hp]
    have := slice_ascii h (a := p.position) (b := p.position + 1) (by omega) (by omega)
    cases hs : slice p.s p.position (p.position + 1) with
    | ok a =>
      dsimp only; unfold parseU32 Res.ofOption
      refine ⟨?_, rfl⟩
      split <;> simp
    | err => simp
    | panic => exact absurd hs this

theorem HttpVersion.fromStr_ascii {s : Bytes} (h : isAscii s = true) : HttpVersion.fromStr s ≠ .panic := by
  unfold HttpVersion.fromStr
  have e1 := Parser.expect_ascii (p := Parser.new s) h b!"HTTP/"
  rcases h1 : (Parser.new s).expect b!"HTTP/" with ⟨r1, p1⟩
  rw [h1] at e1
  cases r1 with
  | err => simp
  | panic => exact absurd rfl e1.1
  | ok _ =>
    dsimp only at e1 ⊢
    have a1 : isAscii p1.s = true := by rw [e1.2]; exact h
    have e2 := Parser.parseDigit_ascii a1
    rcases h2 : p1.parseDigit with ⟨r2, p2⟩
    rw [h2] at e2
    cases r2 with
    | err => simp
    | panic => exact absurd rfl e2.1
    | ok _ =>
      dsimp only at e2 ⊢
      have a2 : isAscii p2.s = true := by rw [e2.2]; exact a1
      have e3 := Parser.expect_ascii a2 b!"."
      rcases h3 : p2.expect b!"." with ⟨r3, p3⟩
      rw [h3] at e3
      cases r3 with
      | err => simp
      | panic => exact absurd rfl e3.1
      | ok _ =>
        dsimp only at e3 ⊢
        have a3 : isAscii p3.s = true := by rw [e3.2]; exact a2
        have e4 := Parser.parseDigit_ascii a3
        rcases h4 : p3.parseDigit with ⟨r4, p4⟩
        rw [h4] at e4
        cases r4 with
        | err => simp
        | panic => exact absurd rfl e4.1
        | ok _ => simp

/-- Tokens of valid text: never a panic, and the parser stays at a valid suffix. -/
theorem Parser.parseToken_valid (pre post : Bytes) (h : validUtf8 post = true) :
    (∃ e, (Parser.parseToken ⟨pre ++ post, pre.length⟩).1 = .err e) ∨
    ∃ tok mid post', post = tok ++ mid ++ post' ∧ validUtf8 post' = true ∧
      Parser.parseToken ⟨pre ++ post, pre.length⟩ =
        (.ok tok, ⟨(pre ++ tok ++ mid) ++ post', (pre ++ tok ++ mid).length⟩) := by
  by_cases hne : post = []
  · subst hne
    left; rw [List.append_nil, Parser.parseToken_nil]; exact ⟨_, rfl⟩
  · right
    have hd := Parser.takeWhile_dropWhile_blank_valid h
    refine ⟨post.takeWhile (fun b => !Parser.isBlank b),
      (post.dropWhile (fun b => !Parser.isBlank b)).takeWhile Parser.isBlank,
      (post.dropWhile (fun b => !Parser.isBlank b)).dropWhile Parser.isBlank, ?_, ?_, ?_⟩
    · rw [List.append_assoc, List.takeWhile_append_dropWhile, List.takeWhile_append_dropWhile]
    · generalize post.dropWhile (fun b => !Parser.isBlank b) = q at hd
      induction q with
      | nil => simpa using hd
      | cons b q ih =>
        rw [List.dropWhile_cons]
        split
        · rename_i hb
          apply ih
          have : b < 0x80 := by
            simp only [Parser.isBlank, Bool.or_eq_true, beq_iff_eq] at hb
            rcases hb with rfl | rfl <;> decide
          rwa [validUtf8_cons_ascii this] at hd
        · exact hd
    · rw [Parser.parseToken_eq pre post hne h]
      simp only [List.append_assoc, List.length_append, List.takeWhile_append_dropWhile, Nat.add_assoc]

theorem isAscii_append {a b : Bytes} : isAscii (a ++ b) = true ↔ isAscii a = true ∧ isAscii b = true := by
  simp [isAscii]

variable [CaseMap]

/-- The content length is the number in the header, or absent, or an error. -/
theorem contentLengthOf_ne_panic (h : HttpHeaders) : contentLengthOf h ≠ .panic := by
  unfold contentLengthOf parseU64 Res.ofOption
  cases h.get b!"Content-Length" with
  | none => simp
  | some v => dsimp only; cases fromStrRadix 10 u64Max v <;> simp

theorem HttpMethod.fromStr_ne_panic (s : Bytes) : HttpMethod.fromStr s ≠ .panic := by
  unfold HttpMethod.fromStr
  repeat' split
  all_goals simp

theorem parseRequestLine_ascii {line : Bytes} (h : isAscii line = true) : parseRequestLine line ≠ .panic := by
  unfold parseRequestLine Parser.new
  have hv := validUtf8_of_ascii h
  rcases Parser.parseToken_valid [] line hv with ⟨e, he⟩ | ⟨t1, m1, q1, rfl, v1, h1⟩
  · simp only [List.nil_append, List.length_nil] at he
    rcases hp : Parser.parseToken ⟨line, 0⟩ with ⟨r, p⟩
    rw [hp] at he; dsimp only at he; rw [he]; simp
  · simp only [List.nil_append, List.length_nil] at h1
    rw [h1]; dsimp only
    cases hm : HttpMethod.fromStr t1 with
    | err => simp
    | panic => exact absurd hm (HttpMethod.fromStr_ne_panic _)
    | ok m =>
      dsimp only
      rcases Parser.parseToken_valid (t1 ++ m1) q1 v1 with ⟨e, he⟩ | ⟨t2, m2, q2, rfl, v2, h2⟩
      · rcases hp : Parser.parseToken ⟨t1 ++ m1 ++ q1, (t1 ++ m1).length⟩ with ⟨r, p⟩
        rw [hp] at he; dsimp only at he; rw [he]; simp
      · rw [h2]; dsimp only
        rcases Parser.parseToken_valid (t1 ++ m1 ++ t2 ++ m2) q2 v2 with ⟨e, he⟩ | ⟨t3, m3, q3, rfl, v3, h3⟩
        · rcases hp : Parser.parseToken ⟨t1 ++ m1 ++ t2 ++ m2 ++ q2, (t1 ++ m1 ++ t2 ++ m2).length⟩ with ⟨r, p⟩
          rw [hp] at he; dsimp only at he; rw [he]; simp
        · rw [h3]; dsimp only
          have ha : isAscii t3 = true := by
            simp only [isAscii_append] at h
            exact h.2.2.1.1
          have := HttpVersion.fromStr_ascii ha
          cases hh : HttpVersion.fromStr t3 with
          | ok => simp
          | err => simp
          | panic => exact absurd hh this

omit [CaseMap] in
theorem parseStatusLine_ascii {line : Bytes} (h : isAscii line = true) : parseStatusLine line ≠ .panic := by
  unfold parseStatusLine Parser.new
  have hv := validUtf8_of_ascii h
  rcases Parser.parseToken_valid [] line hv with ⟨e, he⟩ | ⟨t1, m1, q1, rfl, v1, h1⟩
  · simp only [List.nil_append, List.length_nil] at he
    rcases hp : Parser.parseToken ⟨line, 0⟩ with ⟨r, p⟩
    rw [hp] at he; dsimp only at he; rw [he]; simp
  · simp only [List.nil_append, List.length_nil] at h1
    rw [h1]; dsimp only
    simp only [isAscii_append] at h
    cases hm : HttpVersion.fromStr t1 with
    | err => simp
    | panic => exact absurd hm (HttpVersion.fromStr_ascii h.1.1)
    | ok m =>
      dsimp only
      have hrem : Parser.parseRemaining ⟨t1 ++ m1 ++ q1, (t1 ++ m1).length⟩ =
          (.ok q1, ⟨t1 ++ m1 ++ q1, (t1 ++ m1 ++ q1).length + 1⟩) := by
        unfold Parser.parseRemaining
        rw [if_neg (by simp)]
        dsimp only
        rw [sliceFrom_append v1]
      rw [hrem]; dsimp only
      have := C03_status_parse_total q1 ((validUtf8_iff _).1 v1)
      cases hh : HttpStatus.fromStr q1 with
      | ok => simp
      | err => simp
      | panic => exact absurd hh this

/-- A header line whose first `:` is not followed by a byte above 0x7F is handled without a panic. -/
theorem HttpHeader.deserialize_ne_panic {line : Bytes} (hv : validUtf8 line = true)
    (h : ∀ k b rest, line = k ++ 58 :: b :: rest → (58 : UInt8) ∉ k → b.toNat < 128) :
    HttpHeader.deserialize line ≠ .panic := by
  by_cases hc : (58 : UInt8) ∈ line
  · obtain ⟨k, rest, rfl, hk⟩ := mem_split_first hc
    cases rest with
    | nil => rw [HttpHeader.deserialize_end hv hk]; simp
    | cons b rest =>
      by_cases hb : b = 32
      · subst hb
        have := HttpHeader.deserialize_ok (k := k) (v := rest) (by simpa using hv) hk
        simp only [List.append_assoc, List.cons_append, List.nil_append] at this
        rw [this]; simp
      · rw [HttpHeader.deserialize_bad hv hk hb, if_pos]
        · simp
        · exact UInt8.lt_iff_toNat_lt.2 (h k b rest rfl hk)
  · obtain ⟨e, he⟩ := HttpHeader.deserialize_noColon hv hc
    rw [he]; simp

/-- Exactly when a header line panics the parser. -/
theorem HttpHeader.deserialize_panic_iff {line : Bytes} (hv : validUtf8 line = true) :
    HttpHeader.deserialize line = .panic ↔
      ∃ k b rest, line = k ++ 58 :: b :: rest ∧ (58 : UInt8) ∉ k ∧ 128 ≤ b.toNat := by
  constructor
  · intro h
    by_cases hx : ∃ k b rest, line = k ++ 58 :: b :: rest ∧ (58 : UInt8) ∉ k ∧ 128 ≤ b.toNat
    · exact hx
    · exact absurd h (HttpHeader.deserialize_ne_panic hv fun k b rest h1 h2 =>
        Nat.lt_of_not_le fun h3 => hx ⟨k, b, rest, h1, h2, h3⟩)
  · rintro ⟨k, b, rest, rfl, hk, hb⟩
    rw [HttpHeader.deserialize_bad hv hk (by rintro rfl; simp at hb), if_neg]
    intro hlt
    have := UInt8.lt_iff_toNat_lt.1 hlt
    simp at this; omega

/-- Only ASCII bytes are pending. -/
def AsciiTrace (t : List Ev) : Prop := ∀ b, Ev.byte b ∈ t → b.toNat < 128

omit [CaseMap] in
theorem Spec.Delivers.ascii {c : Cfg} {t t' : List Ev} {bs : Bytes} (h : Delivers c t bs t') (ha : AsciiTrace t) :
    isAscii bs = true ∧ AsciiTrace t' := by
  induction h with
  | nil => exact ⟨rfl, ha⟩
  | byte b _ ih =>
    have := ih fun x hx => ha x (by simp [hx])
    refine ⟨?_, this.2⟩
    rw [isAscii_iff]
    intro x hx
    simp only [List.mem_cons] at hx
    rcases hx with rfl | hx
    · exact ha x (by simp)
    · exact (isAscii_iff _).1 this.1 x hx
  | retry _ _ ih => exact ih fun x hx => ha x (by simp [hx])

section
variable {σ : Type} [LawfulReader σ]

omit [CaseMap] in
theorem gather_ascii {c : Cfg} {line line' : Bytes} {item : Option (Except Err Bytes)} {s s' : σ}
    (ha : AsciiTrace (trace s)) (hl : isAscii line = true) (h : HttpHeaders.gather c line s = (line', item, s')) :
    isAscii line' = true ∧ (∀ n, item = some (.ok n) → isAscii n = true ∧ AsciiTrace (trace s')) := by
  fun_induction HttpHeaders.gather c line s with
  | case1 line s next s1 hc hb ih =>
    have := (crlfNext_ok_inv hc).2.ascii ha
    exact ih this.2 (isAscii_append.2 ⟨hl, (isAscii_append.1 this.1).1⟩) h
  | case2 line s next s1 hc hb =>
    have := (crlfNext_ok_inv hc).2.ascii ha
    simp only [Prod.mk.injEq] at h
    obtain ⟨rfl, rfl, rfl⟩ := h
    refine ⟨hl, fun n hn => ?_⟩
    simp only [Option.some.injEq, Except.ok.injEq] at hn
    subst hn
    exact ⟨(isAscii_append.1 this.1).1, this.2⟩
  | case3 line s item1 s1 hno hc =>
    simp only [Prod.mk.injEq] at h
    obtain ⟨rfl, rfl, rfl⟩ := h
    exact ⟨hl, fun n hn => absurd hn (hno n)⟩

theorem deserializeLoop_ascii {c : Cfg} {item : Option (Except Err Bytes)} {acc : List HttpHeader} {s : σ}
    (ha : ∀ n, item = some (.ok n) → isAscii n = true ∧ AsciiTrace (trace s)) :
    (HttpHeaders.deserializeLoop c item acc s).1 ≠ .panic := by
  fun_induction HttpHeaders.deserializeLoop c item acc s with
  | case1 acc s => simp
  | case2 acc s e => simp
  | case3 acc s line line' item' s1 hg hd hdes ih =>
    have := ha line rfl
    exact ih (gather_ascii this.2 this.1 hg).2
  | case4 acc s line line' item' s1 hg e hdes => simp
  | case5 acc s line line' item' s1 hg hdes =>
    exfalso
    have := ha line rfl
    have hl := (gather_ascii this.2 this.1 hg).1
    refine HttpHeader.deserialize_ne_panic (validUtf8_of_ascii hl) ?_ hdes
    rintro k b rest rfl _
    exact (isAscii_iff _).1 hl b (by simp)

theorem parseHead_ascii {α : Type} {c : Cfg} {start : Bytes → Res α} {s : σ} (ha : AsciiTrace (trace s))
    (hs : ∀ l, isAscii l = true → start l ≠ .panic) : (parseHead c start s).1 ≠ .panic := by
  unfold parseHead
  rcases h1 : expectNext c s with ⟨r1, s1⟩
  cases r1 with
  | error e => simp
  | ok line =>
    have hl := (expectNext_ok_inv h1).2.ascii ha
    have hst := hs line (isAscii_append.1 hl.1).1
    dsimp only
    cases hst' : start line with
    | err e => simp
    | panic => exact absurd hst' hst
    | ok a =>
      dsimp only
      have hh : (HttpHeaders.deserialize c s1).1 ≠ .panic := by
        unfold HttpHeaders.deserialize
        rcases h2 : crlfNext c s1 with ⟨item, s2⟩
        have hp : (HttpHeaders.deserializeLoop c item [] s2).1 ≠ .panic := by
          apply deserializeLoop_ascii
          rintro n rfl
          have := (crlfNext_ok_inv h2).2.ascii hl.2
          exact ⟨(isAscii_append.1 this.1).1, this.2⟩
        dsimp only
        rcases h3 : HttpHeaders.deserializeLoop c item [] s2 with ⟨q, s3⟩
        rw [h3] at hp
        cases q with
        | ok => simp
        | err => simp
        | panic => exact absurd rfl hp
      rcases h3 : HttpHeaders.deserialize c s1 with ⟨q, s3⟩
      rw [h3] at hh
      cases q with
      | panic => exact absurd rfl hh
      | err => simp
      | ok hs' =>
        dsimp only
        cases hcl : contentLengthOf hs' with
        | ok => simp
        | err => simp
        | panic => exact absurd hcl (contentLengthOf_ne_panic _)

end

end HttpIo

namespace HttpIo
open Spec

/-! ### Start lines -/

theorem isBlank_false {b : UInt8} : Parser.isBlank b = false ↔ b ≠ 32 ∧ b ≠ 9 := by
  simp [Parser.isBlank]

theorem takeWhile_word {tok x : Bytes} {b : UInt8} (ht : ∀ b ∈ tok, b ≠ 32 ∧ b ≠ 9) (hb : Parser.isBlank b = true) :
    (tok ++ b :: x).takeWhile (fun b => !Parser.isBlank b) = tok ∧
    (tok ++ b :: x).dropWhile (fun b => !Parser.isBlank b) = b :: x := by
  induction tok with
  | nil => simp [hb]
  | cons a tok ih =>
    have ha := isBlank_false.2 (ht a (by simp))
    have := ih fun b hb => ht b (by simp [hb])
    simp only [List.cons_append, List.takeWhile_cons, List.dropWhile_cons, ha, Bool.not_false, if_true, this]
    exact ⟨trivial, trivial⟩

theorem Parser.parseToken_word (pre tok x : Bytes) (ht : ∀ b ∈ tok, b ≠ 32 ∧ b ≠ 9)
    (hx : ∀ b, x.head? = some b → b ≠ 32 ∧ b ≠ 9) (hv : validUtf8 (tok ++ 32 :: x) = true) :
    Parser.parseToken ⟨pre ++ (tok ++ 32 :: x), pre.length⟩ =
      (.ok tok, ⟨(pre ++ tok ++ [32]) ++ x, (pre ++ tok ++ [32]).length⟩) := by
  rw [Parser.parseToken_eq pre _ (by simp) hv]
  obtain ⟨h1, h2⟩ := takeWhile_word (x := x) (b := 32) ht (by decide)
  rw [h1, h2]
  have h3 : (32 :: x).takeWhile Parser.isBlank = [32] := by
    rw [List.takeWhile_cons, if_pos (by decide)]
    cases x with
    | nil => rfl
    | cons b x =>
      have := isBlank_false.2 (hx b (by simp))
      rw [List.takeWhile_cons, this]; rfl
  rw [h3]
  simp [Nat.add_assoc]

theorem Parser.parseToken_last (pre tok : Bytes) (hne : tok ≠ []) (ht : ∀ b ∈ tok, b ≠ 32 ∧ b ≠ 9)
    (hv : validUtf8 tok = true) :
    Parser.parseToken ⟨pre ++ tok, pre.length⟩ = (.ok tok, ⟨pre ++ tok, (pre ++ tok).length⟩) := by
  rw [Parser.parseToken_eq pre _ hne hv]
  have h1 : tok.takeWhile (fun b => !Parser.isBlank b) = tok :=
    takeWhile_self _ _ fun b hb => by simp [isBlank_false.2 (ht b hb)]
  have h2 : tok.dropWhile (fun b => !Parser.isBlank b) = [] := by
    have := List.takeWhile_append_dropWhile (p := fun b => !Parser.isBlank b) (l := tok)
    rw [h1] at this
    simpa using this
  rw [h1, h2]; simp

theorem validUtf8_join {a b : Bytes} (ha : validUtf8 a = true) (hb : validUtf8 b = true) :
    validUtf8 (a ++ b) = true :=
  (validUtf8_iff _).2 (isText_append ((validUtf8_iff _).1 ha) ((validUtf8_iff _).1 hb))

/-- What the text of a version of two digits looks like. -/
theorem version_text (v : HttpVersion) (h1 : v.major < 10) (h2 : v.minor < 10) :
    v.display ≠ [] ∧ (∀ b ∈ v.display, b ≠ 32 ∧ b ≠ 9) ∧ isAscii v.display = true ∧ (13 : UInt8) ∉ v.display := by
  have : ∀ a < 10, ∀ b < 10, HttpVersion.display ⟨a, b⟩ ≠ [] ∧ (∀ x ∈ HttpVersion.display ⟨a, b⟩, x ≠ 32 ∧ x ≠ 9) ∧
      isAscii (HttpVersion.display ⟨a, b⟩) = true ∧ (13 : UInt8) ∉ HttpVersion.display ⟨a, b⟩ := by decide +kernel
  exact this _ h1 _ h2

/-- The request line of a request of any version of two digits. -/
theorem parseRequestLine_version [CaseMap] (m : HttpMethod) {uri : Bytes} (hu : SendableTarget uri) (v : HttpVersion)
    (hmaj : v.major < 10) (hmin : v.minor < 10) :
    parseRequestLine (utf8 (methodName m) ++ [32] ++ uri ++ [32] ++ v.display) = .ok (m, uri, v) := by
  obtain ⟨w1, w2, w3, _⟩ := version_text v hmaj hmin
  obtain ⟨u1, u2, u3, u4, _⟩ := hu
  have hm : ∀ b ∈ utf8 (methodName m), b ≠ 32 ∧ b ≠ 9 := by
    rw [methodName_bytes]; cases m <;> decide
  have hmv : validUtf8 (utf8 (methodName m)) = true := by rw [methodName_bytes]; cases m <;> decide
  have huv := (validUtf8_iff _).2 u2
  have hub : ∀ b ∈ uri, b ≠ 32 ∧ b ≠ 9 := fun b hb => ⟨fun h => u3 (h ▸ hb), fun h => u4 (h ▸ hb)⟩
  have hver : validUtf8 (32 :: v.display) = true := by
    rw [validUtf8_cons_ascii (by decide)]; exact validUtf8_of_ascii w3
  have hline : utf8 (methodName m) ++ [32] ++ uri ++ [32] ++ v.display =
      [] ++ (utf8 (methodName m) ++ 32 :: (uri ++ 32 :: v.display)) := by simp
  have hv2 : validUtf8 (uri ++ 32 :: v.display) = true := validUtf8_join huv hver
  have hv1 : validUtf8 (utf8 (methodName m) ++ 32 :: (uri ++ 32 :: v.display)) = true :=
    validUtf8_join hmv (by rw [validUtf8_cons_ascii (by decide)]; exact hv2)
  unfold parseRequestLine Parser.new
  rw [hline]
  have t1 := Parser.parseToken_word [] (utf8 (methodName m)) (uri ++ 32 :: v.display) hm (by
    cases uri with
    | nil => exact absurd rfl u1
    | cons b uri => intro x hx; simp only [List.cons_append, List.head?_cons, Option.some.injEq] at hx
                    rw [← hx]; exact hub b (by simp)) hv1
  simp only [List.length_nil] at t1
  rw [t1]
  dsimp only
  have h2 := C05_display_parse m
  rw [← methodName_bytes] at h2
  rw [h2]
  dsimp only
  rw [Parser.parseToken_word _ uri v.display hub (fun b hb => w2 b (List.mem_of_mem_head? hb)) hv2]
  dsimp only
  rw [Parser.parseToken_last _ v.display w1 w2 (validUtf8_of_ascii w3)]
  dsimp only
  rw [C06_version_roundtrip v hmaj hmin]

theorem parseRequestLine_ok [CaseMap] (m : HttpMethod) {uri : Bytes} (hu : SendableTarget uri) :
    parseRequestLine (utf8 (methodName m) ++ [32] ++ uri ++ [32] ++ b!"HTTP/1.1") = .ok (m, uri, ⟨1, 1⟩) := by
  have := parseRequestLine_version m hu ⟨1, 1⟩ (by decide) (by decide)
  rwa [show HttpVersion.display ⟨1, 1⟩ = b!"HTTP/1.1" by decide +kernel] at this

theorem status_display_valid (s : HttpStatus) : isAscii s.display = true := by
  cases s with
  | Unknown v =>
    rw [isAscii_iff]
    intro b hb
    have hb : b ∈ showDec v.toNat := hb
    obtain ⟨d, hd⟩ := (numeral_showDec v.toNat).digits b hb
    have := hd.range
    omega
  | _ => decide

theorem status_display_head (s : HttpStatus) : ∀ b, s.display.head? = some b → b ≠ 32 ∧ b ≠ 9 := by
  cases s with
  | Unknown v =>
    intro b hb
    have hb : (showDec v.toNat).head? = some b := hb
    have hb : b ∈ showDec v.toNat := List.mem_of_mem_head? hb
    obtain ⟨d, hd⟩ := (numeral_showDec v.toNat).digits b hb
    have := hd.range
    refine ⟨?_, ?_⟩ <;> (rintro rfl; simp at this)
  | _ => simp [HttpStatus.display]

theorem status_display_ne (s : HttpStatus) : s.display ≠ [] := by
  cases s with
  | Unknown v =>
    show showDec v.toNat ≠ []
    unfold showDec toRadix
    split <;> simp
  | _ => simp [HttpStatus.display]

theorem status_display_noCrLf (s : HttpStatus) : ¬ HasCrLf s.display := by
  have h : (13 : UInt8) ∉ s.display := by
    cases s with
    | Unknown v =>
      intro hb
      have hb : (13 : UInt8) ∈ showDec v.toNat := hb
      obtain ⟨d, hd⟩ := (numeral_showDec v.toNat).digits _ hb
      have := hd.range
      simp at this
    | _ => decide
  rintro ⟨p, q, hpq⟩
  apply h; rw [← hpq]; simp

/-- The status line of a response of any version of two digits. -/
theorem parseStatusLine_version (s : HttpStatus) (v : HttpVersion) (hv1 : v.major < 10) (hv2 : v.minor < 10) :
    parseStatusLine (v.display ++ [32] ++ s.display) = .ok (v, HttpStatus.fromCode s.toCode) := by
  obtain ⟨_, w2, w3, _⟩ := version_text v hv1 hv2
  have hv : validUtf8 s.display = true := validUtf8_of_ascii (status_display_valid s)
  have hline : v.display ++ [32] ++ s.display = [] ++ (v.display ++ 32 :: s.display) := by simp
  unfold parseStatusLine Parser.new
  rw [hline]
  have t1 := Parser.parseToken_word [] v.display s.display w2 (status_display_head s)
    (validUtf8_join (validUtf8_of_ascii w3) (by rw [validUtf8_cons_ascii (by decide)]; exact hv))
  simp only [List.length_nil] at t1
  rw [t1]
  dsimp only
  rw [C06_version_roundtrip v hv1 hv2]
  dsimp only
  unfold Parser.parseRemaining
  rw [if_neg (by simp)]
  dsimp only
  rw [sliceFrom_append hv]
  dsimp only
  rw [C02_display_parse]

theorem parseStatusLine_ok (s : HttpStatus) :
    parseStatusLine (b!"HTTP/1.1" ++ [32] ++ s.display) = .ok (⟨1, 1⟩, HttpStatus.fromCode s.toCode) := by
  have := parseStatusLine_version s ⟨1, 1⟩ (by decide) (by decide)
  rwa [show HttpVersion.display ⟨1, 1⟩ = b!"HTTP/1.1" by decide +kernel] at this

/-- A complete head with well-formed lines. -/
theorem parseHead_ok [CaseMap] {σ α : Type} [LawfulReader σ] {c : Cfg} {start : Bytes → Res α} {s : σ} {line : Bytes} {a : α}
    {entries : List (Bytes × Bytes)} {t' : List Ev} (hl : RawLine line) (hst : start line = .ok a)
    (hh : SendableHeaders entries)
    (h : Delivers c (trace s) (line ++ [13, 10] ++ headerText entries ++ [13, 10]) t') :
    (parseHead c start s).1 = (match contentLengthOf ⟨entries⟩ with
      | .err e => .err e
      | .panic => .panic
      | .ok n => .ok (a, ⟨entries⟩, HttpHeaders.get ⟨entries⟩ b!"Transfer-Encoding", n)) ∧
    trace (parseHead c start s).2 = t' := by
  rw [List.append_assoc] at h
  obtain ⟨m, hm1, hm2⟩ := h.split
  obtain ⟨s1, h1, h2⟩ := expectNext_line hl hm1
  obtain ⟨s2, h3, h4⟩ := deserialize_headerText (h := ⟨entries⟩) hh.1 hh.2.1 hh.2.2 (s := s1) (by rw [h2]; exact hm2)
  unfold parseHead
  rw [h1]; dsimp only
  rw [hst]; dsimp only
  rw [h3]; dsimp only
  cases contentLengthOf ⟨entries⟩ <;> exact ⟨rfl, h4⟩

end HttpIo

namespace HttpIo
open Spec

/-! ### Framing -/

theorem mapGet_iff {m : List (Bytes × Bytes)} (hs : SortedNames m) (k v : Bytes) :
    mapGet k m = some v ↔ (k, v) ∈ m := by
  constructor
  · exact mapGet_mem
  · intro h
    induction m with
    | nil => simp at h
    | cons kv m ih =>
      obtain ⟨k', v'⟩ := kv
      unfold SortedNames at hs
      rw [List.pairwise_cons] at hs
      simp only [List.mem_cons, Prod.mk.injEq] at h
      rcases h with ⟨rfl, rfl⟩ | h
      · simp [mapGet]
      · have hlt := hs.1 _ h
        have hne : k ≠ k' := by
          rintro rfl
          exact absurd hlt (by simp [List.lt_irrefl])
        rw [mapGet, if_neg hne]
        exact ih hs.2 h

section
variable [CaseMap]

theorem lower_contentLength : CaseMap.lower b!"Content-Length" = b!"content-length" := by
  rw [CaseMap.lower_ascii _ (by decide)]; decide

theorem lower_transferEncoding : CaseMap.lower b!"Transfer-Encoding" = b!"transfer-encoding" := by
  rw [CaseMap.lower_ascii _ (by decide)]; decide

omit [CaseMap] in
theorem lengthText_iff {v : Bytes} {n : Nat} : fromStrRadix 10 u64Max v = some n ↔ LengthText v n := by
  rw [fromStrRadix_iff (by omega) (by omega)]
  unfold LengthText u64Max
  constructor
  · rintro ⟨h1, h2⟩; exact ⟨h1, by omega⟩
  · rintro ⟨h1, h2⟩; exact ⟨h1, by omega⟩

/-- The three outcomes of looking at the content length. -/
theorem contentLengthOf_cases {h : HttpHeaders} (hs : SortedNames h.entries) :
    (contentLengthOf h = .ok none ∧ ∀ v, (b!"content-length", v) ∉ h.entries) ∨
    (∃ v n, (b!"content-length", v) ∈ h.entries ∧ LengthText v n ∧ contentLengthOf h = .ok (some n)) ∨
    (∃ v, (b!"content-length", v) ∈ h.entries ∧ (¬ ∃ n, LengthText v n) ∧ contentLengthOf h = .err .parseInt) := by
  unfold contentLengthOf HttpHeaders.get parseU64 Res.ofOption
  rw [lower_contentLength]
  cases hg : mapGet b!"content-length" h.entries with
  | none =>
    left
    refine ⟨rfl, fun v hv => ?_⟩
    exact mapGet_eq_none.1 hg _ hv rfl
  | some v =>
    right
    have hm := mapGet_mem hg
    dsimp only
    cases hf : fromStrRadix 10 u64Max v with
    | none =>
      right
      refine ⟨v, hm, ?_, rfl⟩
      rintro ⟨n, hn⟩
      rw [lengthText_iff.2 hn] at hf; simp at hf
    | some n => left; exact ⟨v, n, hm, lengthText_iff.1 hf, rfl⟩

theorem framing_new {c : Cfg} {ρ : Type} {h : HttpHeaders} {n : Option Nat} (hs : SortedNames h.entries)
    (hn : contentLengthOf h = .ok n) (s : ρ) :
    FramedBy h.entries (framing (HttpBody.new c (h.get b!"Transfer-Encoding") n s)) ∧ LengthOk h.entries := by
  have hte : h.get b!"Transfer-Encoding" = some b!"chunked" ↔ (b!"transfer-encoding", b!"chunked") ∈ h.entries := by
    unfold HttpHeaders.get; rw [lower_transferEncoding]; exact mapGet_iff hs _ _
  have huniq : ∀ v w, (b!"content-length", v) ∈ h.entries → (b!"content-length", w) ∈ h.entries → v = w := by
    intro v w hv hw
    have h1 := (mapGet_iff hs _ _).2 hv
    have h2 := (mapGet_iff hs _ _).2 hw
    rw [h1] at h2; simpa using h2
  unfold HttpBody.new
  rcases contentLengthOf_cases hs with ⟨h1, h2⟩ | ⟨v, k, h1, h2, h3⟩ | ⟨v, _, _, h3⟩
  · rw [h1] at hn; simp only [Res.ok.injEq] at hn; subst hn
    refine ⟨?_, fun v hv => absurd hv (h2 v)⟩
    by_cases he : h.get b!"Transfer-Encoding" = some b!"chunked"
    · rw [if_pos he]; exact .chunked (hte.1 he)
    · rw [if_neg he]; exact .tilClose (fun hx => he (hte.2 hx)) h2
  · rw [h3] at hn; simp only [Res.ok.injEq] at hn; subst hn
    refine ⟨?_, fun w hw => ⟨k, huniq v w h1 hw ▸ h2⟩⟩
    by_cases he : h.get b!"Transfer-Encoding" = some b!"chunked"
    · rw [if_pos he]; exact .chunked (hte.1 he)
    · rw [if_neg he]; exact .limited (fun hx => he (hte.2 hx)) h1 h2
  · rw [h3] at hn; simp at hn

theorem fromVec_sorted (l : List HttpHeader) : SortedNames (HttpHeaders.fromVec l).entries := by
  rw [fromVec_entries]; exact insertAll_sorted (by simp [SortedNames])

theorem headers_sorted {σ : Type} [LawfulReader σ] {c : Cfg} {s s' : σ} {hs : HttpHeaders}
    (h : HttpHeaders.deserialize c s = (.ok hs, s')) : SortedNames hs.entries := by
  unfold HttpHeaders.deserialize at h
  rcases h1 : crlfNext c s with ⟨item, s1⟩
  rw [h1] at h
  dsimp only at h
  rcases h2 : HttpHeaders.deserializeLoop c item [] s1 with ⟨q, s2⟩
  rw [h2] at h
  cases q with
  | err e => simp at h
  | panic => simp at h
  | ok l => simp only [Prod.mk.injEq, Res.ok.injEq] at h; rw [← h.1]; exact fromVec_sorted l

theorem parseHead_framing {σ α : Type} [LawfulReader σ] {c : Cfg} {start : Bytes → Res α} {s s' : σ} {a : α}
    {hs : HttpHeaders} {enc : Option Bytes} {n : Option Nat}
    (h : parseHead c start s = (.ok (a, hs, enc, n), s')) :
    SortedNames hs.entries ∧ enc = hs.get b!"Transfer-Encoding" ∧ contentLengthOf hs = .ok n := by
  unfold parseHead at h
  rcases h1 : expectNext c s with ⟨r1, s1⟩
  rw [h1] at h
  cases r1 with
  | error e => simp at h
  | ok line =>
    dsimp only at h
    cases hst : start line with
    | err e => rw [hst] at h; simp at h
    | panic => rw [hst] at h; simp at h
    | ok a' =>
      rw [hst] at h; dsimp only at h
      rcases h2 : HttpHeaders.deserialize c s1 with ⟨q, s2⟩
      rw [h2] at h
      cases q with
      | err e => simp at h
      | panic => simp at h
      | ok hs' =>
        dsimp only at h
        cases hcl : contentLengthOf hs' with
        | err e => rw [hcl] at h; simp at h
        | panic => rw [hcl] at h; simp at h
        | ok n' =>
          rw [hcl] at h
          simp only [Prod.mk.injEq, Res.ok.injEq] at h
          obtain ⟨⟨_, rfl, rfl, rfl⟩, _⟩ := h
          exact ⟨headers_sorted h2, rfl, hcl⟩

end
end HttpIo
