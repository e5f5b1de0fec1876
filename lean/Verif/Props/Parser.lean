import Verif.Spec.Parser
import Verif.Lemmas.Parser
import Verif.Lemmas.Headers
import Verif.Lemmas.Case

/-! C59: sequences of calls on the text parser. -/

namespace HttpIo
open Spec

theorem findSub_spec {d l : Bytes} {i : Nat} (h : findSub d l = some i) :
    ∃ rest, l = l.take i ++ d ++ rest ∧ i ≤ l.length ∧ ∀ w' rest', l = w' ++ d ++ rest' → i ≤ w'.length := by
  induction l generalizing i with
  | nil =>
    unfold findSub at h
    split at h
    · rename_i hd
      rw [List.isEmpty_iff] at hd
      simp only [Option.some.injEq] at h
      subst hd; subst h
      exact ⟨[], rfl, Nat.le_refl _, fun _ _ _ => Nat.zero_le _⟩
    · simp at h
  | cons b l ih =>
    unfold findSub at h
    split at h
    · rename_i hd
      simp only [Option.some.injEq] at h
      subst h
      obtain ⟨rest, hr⟩ := List.isPrefixOf_iff_prefix.1 hd
      exact ⟨rest, by simpa using hr.symm, Nat.zero_le _, fun _ _ _ => Nat.zero_le _⟩
    · rename_i hd
      cases hf : findSub d l with
      | none => rw [hf] at h; simp at h
      | some j =>
        rw [hf] at h
        simp only [Option.map_some, Option.some.injEq] at h
        subst h
        obtain ⟨rest, h1, h2, h3⟩ := ih hf
        refine ⟨rest, ?_, by simp; exact h2, ?_⟩
        · rw [List.take_succ_cons, List.cons_append, List.cons_append, ← h1]
        · intro w' rest' hw
          cases w' with
          | nil => exact absurd (List.isPrefixOf_iff_prefix.2 ⟨rest', by simpa using hw.symm⟩) hd
          | cons x w' =>
            simp only [List.cons_append, List.cons.injEq] at hw
            have := h3 w' rest' hw.2
            simp; exact this

theorem findSub_none {d l : Bytes} (h : findSub d l = none) : ∀ w rest, l ≠ w ++ d ++ rest := by
  induction l with
  | nil =>
    intro w rest hw
    have h1 := congrArg List.length hw
    simp only [List.length_nil, List.length_append] at h1
    have : d = [] := List.eq_nil_of_length_eq_zero (by omega)
    subst this
    simp [findSub] at h
  | cons b l ih =>
    intro w rest hw
    unfold findSub at h
    split at h
    · simp at h
    · rename_i hd
      cases w with
      | nil => exact hd (List.isPrefixOf_iff_prefix.2 ⟨rest, by simpa using hw.symm⟩)
      | cons x w =>
        simp only [List.cons_append, List.cons.injEq] at hw
        exact ih (by simpa using h) w rest hw.2

theorem findAny_spec {ds l : Bytes} {i : Nat} (h : findAny ds l = some i) :
    ∃ b rest, l = l.take i ++ b :: rest ∧ b ∈ ds ∧ ∀ x ∈ l.take i, x ∉ ds := by
  induction l generalizing i with
  | nil => simp [findAny] at h
  | cons b l ih =>
    unfold findAny at h
    split at h
    · rename_i hd
      simp only [Option.some.injEq] at h
      subst h
      exact ⟨b, l, rfl, by simpa using hd, by simp⟩
    · rename_i hd
      cases hf : findAny ds l with
      | none => rw [hf] at h; simp at h
      | some j =>
        rw [hf] at h
        simp only [Option.map_some, Option.some.injEq] at h
        subst h
        obtain ⟨x, rest, h1, h2, h3⟩ := ih hf
        refine ⟨x, rest, ?_, h2, ?_⟩
        · rw [List.take_succ_cons, List.cons_append, ← h1]
        · intro y hy
          rw [List.take_succ_cons, List.mem_cons] at hy
          rcases hy with rfl | hy
          · simpa using hd
          · exact h3 y hy

theorem findAny_none {ds l : Bytes} (h : findAny ds l = none) : ∀ x ∈ l, x ∉ ds := by
  induction l with
  | nil => simp
  | cons b l ih =>
    unfold findAny at h
    split at h
    · simp at h
    · rename_i hd
      intro x hx
      rw [List.mem_cons] at hx
      rcases hx with rfl | hx
      · simpa using hd
      · exact ih (by simpa using h) x hx

theorem blank_takeWhile (l : Bytes) : Blank (l.takeWhile Parser.isBlank) := by
  intro b hb
  have := all_takeWhile _ _ b hb
  simpa [Parser.isBlank] using this

theorem not_startsBlank_dropWhile (l : Bytes) : ¬ StartsBlank (l.dropWhile Parser.isBlank) := by
  induction l with
  | nil => rintro ⟨b, r, h, _⟩; simp at h
  | cons b l ih =>
    rw [List.dropWhile_cons]
    split
    · exact ih
    · rename_i hb
      rintro ⟨x, r, h, hx⟩
      simp only [List.cons.injEq] at h
      rw [h.1] at hb
      rcases hx with rfl | rfl <;> simp [Parser.isBlank] at hb

/-- The pieces that taking a token uses. -/
theorem token_split (l : Bytes) :
    ∃ tok bl rest, l = tok ++ bl ++ rest ∧ FirstToken l tok ∧ Blank bl ∧ ¬ StartsBlank rest ∧
      tok = l.takeWhile (fun b => !Parser.isBlank b) ∧ bl = (l.dropWhile fun b => !Parser.isBlank b).takeWhile Parser.isBlank := by
  refine ⟨_, _, (l.dropWhile fun b => !Parser.isBlank b).dropWhile Parser.isBlank, ?_, takeWhile_firstToken l,
    blank_takeWhile _, not_startsBlank_dropWhile _, rfl, rfl⟩
  rw [List.append_assoc, List.takeWhile_append_dropWhile, List.takeWhile_append_dropWhile]

theorem parseU32_cases (t : Bytes) :
    (∃ n, parseU32 t = .ok n ∧ UnsignedText 10 t n ∧ n < 2 ^ 32) ∨
    (parseU32 t = .err .parseInt ∧ ∀ n, UnsignedText 10 t n → 2 ^ 32 ≤ n) := by
  unfold parseU32 Res.ofOption
  cases h : fromStrRadix 10 u32Max t with
  | some n =>
    have := (fromStrRadix_iff (by omega) (by omega)).1 h
    refine .inl ⟨n, rfl, this.1, ?_⟩
    have h2 := this.2
    unfold u32Max at h2
    omega
  | none =>
    refine .inr ⟨rfl, fun n hn => ?_⟩
    apply Classical.byContradiction
    intro hlt
    have := (fromStrRadix_iff (r := 10) (max := u32Max) (by omega) (by omega)).2 ⟨hn, by unfold u32Max; omega⟩
    rw [h] at this
    simp at this

theorem unsigned_one {b : UInt8} {n : Nat} : UnsignedText 10 [b] n ↔ DigitVal 10 b n := by
  constructor
  · rintro (hn | ⟨ds, hds, hn⟩)
    · have hf := hn.toFrom
      cases hf with
      | cons hdv hf => cases hf; simpa using hdv
    · simp only [List.cons.injEq] at hds
      exact absurd hds.2.symm hn.ne_nil
  · exact fun h => .inl (.one h)

/-- One call on a parser over ASCII text, of which `pre` is read: the outcome is as specified, and the parser after it
has read what the outcome says. -/
theorem pcall_gives (pre post : Bytes) (ha : isAscii post = true) (k : PCall) :
    ∃ used rest, post = used ++ rest ∧ Gives (used ++ rest) k (pcall ⟨pre ++ post, pre.length⟩ k).1 used ∧
      (pcall ⟨pre ++ post, pre.length⟩ k).2 = ⟨pre ++ post, if k = .remaining then (pre ++ post).length + 1 else pre.length + used.length⟩ := by
  have hv := validUtf8_of_ascii ha
  cases hpost : post with
  | nil =>
    subst hpost
    by_cases h1 : k = .blanks
    · subst h1
      refine ⟨[], [], rfl, ?_, ?_⟩
      · have : pcall ⟨pre ++ [], pre.length⟩ .blanks = (.unit, ⟨pre ++ [], pre.length⟩) := by
          unfold pcall; rw [Parser.consumeWhitespace_eq pre [] hv]; rfl
        rw [this]
        exact .blanks (bl := []) (by simp [Blank]) (by rintro ⟨_, _, h, _⟩; simp at h)
      · unfold pcall; rw [Parser.consumeWhitespace_eq pre [] hv]; simp
    · by_cases h2 : k = .remaining
      · subst h2
        have h3 := sliceFrom_append (pre := pre) hv
        have : pcall ⟨pre ++ [], pre.length⟩ .remaining = (.text [], ⟨pre ++ [], (pre ++ []).length + 1⟩) := by
          unfold pcall Parser.parseRemaining
          dsimp only
          rw [if_neg (by simp), h3]
          rfl
        exact ⟨[], [], rfl, by rw [this]; exact .remaining, by rw [this]; simp⟩
      · have hend : pre.length ≥ (pre ++ []).length := by simp
        have : pcall ⟨pre ++ [], pre.length⟩ k = (.fail .unexpectedEof, ⟨pre ++ [], pre.length⟩) := by
          cases k <;>
            simp [pcall, Parser.expect, Parser.parseChar, Parser.parseDigit, Parser.parseUntil, Parser.parseUntilAny,
              Parser.parseToken, Parser.parseNumber, pout] at h1 h2 ⊢
        exact ⟨[], [], rfl, by rw [this]; exact .ended h1 h2, by rw [this, if_neg h2]; simp⟩
  | cons b l =>
  rw [← hpost]
  have hne : post ≠ [] := by rw [hpost]; simp
  have hlt : ¬ (pre.length ≥ (pre ++ post).length) := by rw [hpost]; simp
  have hfrom := sliceFrom_append (pre := pre) hv
  have hb : b < 0x80 := by
    rw [hpost] at ha; simp only [isAscii, List.all_cons, Bool.and_eq_true, decide_eq_true_eq] at ha; exact ha.1
  have hvl : validUtf8 l = true := by
    apply validUtf8_of_ascii
    rw [hpost] at ha; simp only [isAscii, List.all_cons, Bool.and_eq_true, decide_eq_true_eq] at ha
    simpa [isAscii] using ha.2
  have hone : slice (pre ++ post) pre.length (pre.length + 1) = .ok [b] := by rw [hpost]; exact slice_ascii1 hb hvl
  cases k with
  | expect e =>
    by_cases hp : e <+: post
    · obtain ⟨rest, hr⟩ := hp
      refine ⟨e, rest, hr.symm, ?_, ?_⟩
      all_goals
        have hs : slice (pre ++ post) pre.length (min (pre ++ post).length (pre.length + e.length)) = .ok e := by
          have hmin : min (pre ++ post).length (pre.length + e.length) = pre.length + e.length := by
            rw [← hr]; simp
          have hrv : validUtf8 rest = true := by
            apply validUtf8_of_ascii
            rw [← hr] at ha
            simp only [isAscii, List.all_append, Bool.and_eq_true] at ha
            exact ha.2
          rw [hmin, ← hr]
          exact slice_append3 (by rw [hr]; exact hv) hrv
        have : pcall ⟨pre ++ post, pre.length⟩ (.expect e) = (.unit, ⟨pre ++ post, pre.length + e.length⟩) := by
          unfold pcall Parser.expect
          dsimp only
          rw [if_neg hlt, hs]
          simp [pout]
        rw [this]
      · exact .expect (by rw [hr]; exact hne)
      · rw [if_neg (by simp)]
    · refine ⟨[], post, rfl, ?_, ?_⟩
      all_goals
        obtain ⟨act, hs, hact⟩ : ∃ act, slice (pre ++ post) pre.length (min (pre ++ post).length (pre.length + e.length)) = .ok act ∧
            act <+: post := by
          have hsplit : post = post.take e.length ++ post.drop e.length := (List.take_append_drop _ _).symm
          refine ⟨post.take e.length, ?_, List.take_prefix _ _⟩
          have hmin : min (pre ++ post).length (pre.length + e.length) = pre.length + (post.take e.length).length := by
            simp; omega
          have hrv : validUtf8 (post.drop e.length) = true := by
            apply validUtf8_of_ascii
            have ha' := ha
            rw [hsplit] at ha'
            simp only [isAscii, List.all_append, Bool.and_eq_true] at ha'
            exact ha'.2
          rw [hmin]
          have := slice_append3 (a := pre) (b := post.take e.length) (d := post.drop e.length) (by rw [← hsplit]; exact hv) hrv
          rwa [← hsplit] at this
        have : pcall ⟨pre ++ post, pre.length⟩ (.expect e) = (.fail .parse, ⟨pre ++ post, pre.length⟩) := by
          unfold pcall Parser.expect
          dsimp only
          rw [if_neg hlt, hs]
          dsimp only
          rw [if_pos (fun h : act = e => hp (h ▸ hact))]
          rfl
        rw [this]
      · exact .expectNot hne hp
      · simp
  | char =>
    have : pcall ⟨pre ++ post, pre.length⟩ .char = (.char b, ⟨pre ++ post, pre.length + 1⟩) := by
      unfold pcall Parser.parseChar
      dsimp only
      rw [if_neg hlt, hone]
      rfl
    rw [this]
    exact ⟨[b], l, hpost, .char, by simp⟩
  | digit =>
    have : pcall ⟨pre ++ post, pre.length⟩ .digit = (pout .num (parseU32 [b]), ⟨pre ++ post, pre.length + 1⟩) := by
      unfold pcall Parser.parseDigit
      dsimp only
      rw [if_neg hlt, hone]
    rw [this]
    refine ⟨[b], l, hpost, ?_, by simp⟩
    rcases parseU32_cases [b] with ⟨n, h1, h2, _⟩ | ⟨h1, h2⟩
    · rw [h1]; exact .digit (unsigned_one.1 h2)
    · rw [h1]
      refine .digitNot fun d hd => ?_
      have := h2 d (unsigned_one.2 hd)
      cases hd <;> omega
  | «until» d =>
    have hcall : pcall ⟨pre ++ post, pre.length⟩ (.until d) =
        match findSub d post with
        | none => (.fail .parse, ⟨pre ++ post, pre.length⟩)
        | some i => (.text (post.take i), ⟨pre ++ post, pre.length + i⟩) := by
      unfold pcall Parser.parseUntil
      dsimp only
      rw [if_neg hlt, hfrom]
      dsimp only
      cases findSub d post <;> rfl
    rw [hcall]
    cases hf : findSub d post with
    | none => exact ⟨[], post, rfl, .untilNot hne (findSub_none hf), by simp⟩
    | some i =>
      obtain ⟨rest, h1, h2, h3⟩ := findSub_spec hf
      refine ⟨post.take i, d ++ rest, by rw [← List.append_assoc]; exact h1, ?_, by simp [h2]⟩
      rw [← List.append_assoc]
      exact .until (by rw [← h1]; exact hne) (fun w' rest' hw => by
        rw [← h1] at hw
        have := h3 w' rest' hw
        simp; omega)
  | untilAny ds =>
    have hcall : pcall ⟨pre ++ post, pre.length⟩ (.untilAny ds) =
        match findAny ds post with
        | none => (.fail .parse, ⟨pre ++ post, pre.length⟩)
        | some i => (.text (post.take i), ⟨pre ++ post, pre.length + i⟩) := by
      unfold pcall Parser.parseUntilAny
      dsimp only
      rw [if_neg hlt, hfrom]
      dsimp only
      cases findAny ds post <;> rfl
    rw [hcall]
    cases hf : findAny ds post with
    | none => exact ⟨[], post, rfl, .untilAnyNot hne (findAny_none hf), by simp⟩
    | some i =>
      obtain ⟨x, rest, h1, h2, h3⟩ := findAny_spec hf
      refine ⟨post.take i, x :: rest, h1, .untilAny h2 h3, ?_⟩
      have : i ≤ post.length := by
        apply Classical.byContradiction
        intro hi
        rw [List.take_of_length_le (by omega)] at h1
        have := congrArg List.length h1
        simp at this
      simp [this]
  | blanks =>
    have : pcall ⟨pre ++ post, pre.length⟩ .blanks =
        (.unit, ⟨pre ++ post, pre.length + (post.takeWhile Parser.isBlank).length⟩) := by
      unfold pcall; rw [Parser.consumeWhitespace_eq pre post hv]; rfl
    rw [this]
    exact ⟨post.takeWhile Parser.isBlank, post.dropWhile Parser.isBlank, (List.takeWhile_append_dropWhile).symm,
      .blanks (blank_takeWhile _) (not_startsBlank_dropWhile _), by simp⟩
  | token =>
    obtain ⟨tok, bl, rest, h1, h2, h3, h4, h5, h6⟩ := token_split post
    have hcall : pcall ⟨pre ++ post, pre.length⟩ .token = (.text tok, ⟨pre ++ post, pre.length + (tok ++ bl).length⟩) := by
      unfold pcall
      rw [Parser.parseToken_eq pre post hne hv, ← h5, ← h6, List.length_append, ← Nat.add_assoc]
      rfl
    rw [hcall]
    refine ⟨tok ++ bl, rest, h1, .token (by rw [← h1]; exact hne) (by rw [← h1]; exact h2) h3 h4, by simp⟩
  | number =>
    obtain ⟨tok, bl, rest, h1, h2, h3, h4, h5, h6⟩ := token_split post
    have hcall : pcall ⟨pre ++ post, pre.length⟩ .number = (pout .num (parseU32 tok), ⟨pre ++ post, pre.length + (tok ++ bl).length⟩) := by
      unfold pcall Parser.parseNumber
      rw [Parser.parseToken_eq pre post hne hv, ← h5, ← h6, List.length_append, ← Nat.add_assoc]
    rw [hcall]
    refine ⟨tok ++ bl, rest, h1, ?_, by simp⟩
    rcases parseU32_cases tok with ⟨n, g1, g2, g3⟩ | ⟨g1, g2⟩
    · rw [g1]; exact .number (by rw [← h1]; exact hne) (by rw [← h1]; exact h2) h3 h4 g2 g3
    · rw [g1]; exact .numberNot (by rw [← h1]; exact hne) (by rw [← h1]; exact h2) h3 h4 g2
  | remaining =>
    have : pcall ⟨pre ++ post, pre.length⟩ .remaining = (.text post, ⟨pre ++ post, (pre ++ post).length + 1⟩) := by
      unfold pcall Parser.parseRemaining
      dsimp only
      rw [if_neg (by simp), hfrom]
      rfl
    rw [this]
    exact ⟨post, [], by simp, by rw [List.append_nil]; exact .remaining, by simp⟩

/-- After `parse_remaining`. -/
theorem pcall_over (s : Bytes) (k : PCall) :
    pcall ⟨s, s.length + 1⟩ k = (if k = .blanks then .unit else .fail .unexpectedEof, ⟨s, s.length + 1⟩) := by
  have h1 : s.length + 1 ≥ s.length := by omega
  cases k <;> (unfold pcall; dsimp only)
  · unfold Parser.expect; dsimp only; rw [if_pos h1]; rfl
  · unfold Parser.parseChar; dsimp only; rw [if_pos h1]; rfl
  · unfold Parser.parseDigit; dsimp only; rw [if_pos h1]; rfl
  · unfold Parser.parseUntil; dsimp only; rw [if_pos h1]; rfl
  · unfold Parser.parseUntilAny; dsimp only; rw [if_pos h1]; rfl
  · rw [Parser.consumeWhitespace]; dsimp only; rw [if_neg (by omega)]; rfl
  · unfold Parser.parseToken; dsimp only; rw [if_pos h1]; rfl
  · unfold Parser.parseNumber Parser.parseToken; dsimp only; rw [if_pos h1]; rfl
  · unfold Parser.parseRemaining; dsimp only; rw [if_pos (by omega)]; rfl

theorem pcalls_over (s : Bytes) (ks : List PCall) :
    Reads none ks (pcalls ⟨s, s.length + 1⟩ ks) (List.replicate ks.length []) := by
  induction ks with
  | nil => exact .nil _
  | cons k ks ih =>
    unfold pcalls
    rw [pcall_over]
    exact .over ih

/-- Every sequence of calls on a parser over ASCII text gives results according to the specification. -/
theorem C59_reads (s : Bytes) (hs : AsciiText s) (ks : List PCall) :
    ∃ us, Reads (some s) ks (pcalls (Parser.new s) ks) us := by
  have key : ∀ (ks : List PCall) (pre post : Bytes), isAscii post = true →
      ∃ us, Reads (some post) ks (pcalls ⟨pre ++ post, pre.length⟩ ks) us := by
    intro ks
    induction ks with
    | nil => intro pre post _; exact ⟨[], .nil _⟩
    | cons k ks ih =>
      intro pre post ha
      obtain ⟨used, rest, h1, h2, h3⟩ := pcall_gives pre post ha k
      unfold pcalls
      rw [h3]
      by_cases hk : k = .remaining
      · rw [if_pos hk]
        refine ⟨used :: List.replicate ks.length [], ?_⟩
        rw [h1] at h2 ⊢
        exact .call h2 (by rw [if_pos hk]; exact pcalls_over _ ks)
      · rw [if_neg hk]
        have har : isAscii rest = true := by
          rw [h1] at ha
          simp only [isAscii, List.all_append, Bool.and_eq_true] at ha
          exact ha.2
        obtain ⟨us, h4⟩ := ih (pre ++ used) rest har
        refine ⟨used :: us, ?_⟩
        rw [List.append_assoc, ← h1, List.length_append] at h4
        rw [h1] at h2 h4 ⊢
        exact .call h2 (by rw [if_neg hk]; exact h4)
  exact key ks [] s ((isAscii_iff s).2 hs)

theorem blanks_unique {bl bl' rest rest' : Bytes} (h : bl ++ rest = bl' ++ rest') (hb : Blank bl) (hb' : Blank bl')
    (hr : ¬ StartsBlank rest) (hr' : ¬ StartsBlank rest') : bl = bl' := by
  induction bl generalizing bl' with
  | nil =>
    cases bl' with
    | nil => rfl
    | cons x bl' => exact absurd ⟨x, bl' ++ rest', by simpa using h, hb' x (by simp)⟩ hr
  | cons b bl ih =>
    cases bl' with
    | nil => exact absurd ⟨b, bl ++ rest, by simpa using h.symm, hb b (by simp)⟩ hr'
    | cons x bl' =>
      simp only [List.cons_append, List.cons.injEq] at h
      rw [h.1, ih h.2 (fun b hb' => hb b (by simp [hb'])) (fun b hb => hb' b (by simp [hb]))]

theorem untilAny_unique {ds w w' rest rest' : Bytes} {b b' : UInt8} (h : w ++ b :: rest = w' ++ b' :: rest')
    (hb : b ∈ ds) (hb' : b' ∈ ds) (hw : ∀ x ∈ w, x ∉ ds) (hw' : ∀ x ∈ w', x ∉ ds) : w = w' := by
  induction w generalizing w' with
  | nil =>
    cases w' with
    | nil => rfl
    | cons x w' =>
      simp only [List.nil_append, List.cons_append, List.cons.injEq] at h
      exact absurd hb (h.1 ▸ hw' x (by simp))
  | cons y w ih =>
    cases w' with
    | nil =>
      simp only [List.nil_append, List.cons_append, List.cons.injEq] at h
      exact absurd hb' (h.1 ▸ hw y (by simp))
    | cons x w' =>
      simp only [List.cons_append, List.cons.injEq] at h
      rw [h.1, ih h.2 (fun x hx => hw x (by simp [hx])) (fun x hx => hw' x (by simp [hx]))]

theorem digit_determined {b : UInt8} {d d' : Nat} (h : DigitVal 10 b d) (h' : DigitVal 10 b d') : d = d' := by
  have h1 := (NumeralFrom.cons (acc := 0) h (.nil _))
  have h2 := (NumeralFrom.cons (acc := 0) h' (.nil _))
  have := h1.unique h2
  omega

theorem unsigned_determined {t : Bytes} {n n' : Nat} (h : UnsignedText 10 t n) (h' : UnsignedText 10 t n') : n = n' := by
  have h1 := (fromStrRadix_iff (r := 10) (max := n + n') (by omega) (by omega)).2 ⟨h, by omega⟩
  have h2 := (fromStrRadix_iff (r := 10) (max := n + n') (by omega) (by omega)).2 ⟨h', by omega⟩
  rw [h1] at h2
  simpa using h2

theorem token_unique {tok bl rest tok' bl' rest' : Bytes} (h : tok ++ bl ++ rest = tok' ++ bl' ++ rest')
    (ht : FirstToken (tok ++ bl ++ rest) tok) (ht' : FirstToken (tok' ++ bl' ++ rest') tok') (hb : Blank bl)
    (hb' : Blank bl') (hr : ¬ StartsBlank rest) (hr' : ¬ StartsBlank rest') : tok = tok' ∧ bl = bl' := by
  have h1 := ht.unique (h ▸ ht')
  subst h1
  rw [List.append_assoc, List.append_assoc, List.append_cancel_left_eq] at h
  exact ⟨rfl, blanks_unique h hb hb' hr hr'⟩

/-- The specification leaves nothing open: the unread text and the call determine the outcome and what is used up. -/
theorem C59_determined (l : Bytes) (k : PCall) (out out' : POut) (used used' : Bytes) (h : Gives l k out used)
    (h' : Gives l k out' used') : out = out' ∧ used = used' := by
  generalize hl : l = l' at h'
  cases h with
  | expect hne =>
    cases h' with
    | expect _ => exact ⟨rfl, rfl⟩
    | expectNot _ hn => exact absurd ⟨_, hl⟩ hn
    | ended _ _ => exact absurd hl hne
  | expectNot hne hn =>
    cases h' with
    | expect _ => exact absurd ⟨_, hl.symm⟩ hn
    | expectNot _ _ => exact ⟨rfl, rfl⟩
    | ended _ _ => exact absurd hl hne
  | char =>
    cases h' with
    | char => simp only [List.cons.injEq] at hl; rw [hl.1]; exact ⟨rfl, rfl⟩
    | ended _ _ => simp at hl
  | digit hd =>
    cases h' with
    | digit hd' =>
      simp only [List.cons.injEq] at hl
      rw [hl.1] at hd ⊢
      exact ⟨by rw [digit_determined hd hd'], rfl⟩
    | digitNot hn =>
      simp only [List.cons.injEq] at hl
      rw [hl.1] at hd
      exact absurd hd (hn _)
    | ended _ _ => simp at hl
  | digitNot hn =>
    cases h' with
    | digit hd =>
      simp only [List.cons.injEq] at hl
      rw [hl.1] at hn
      exact absurd hd (hn _)
    | digitNot _ => simp only [List.cons.injEq] at hl; rw [hl.1]; exact ⟨rfl, rfl⟩
    | ended _ _ => simp at hl
  | «until» hne hm =>
    cases h' with
    | «until» hne' hm' =>
      have h1 := hm _ _ hl
      have h2 := hm' _ _ hl.symm
      rw [List.append_assoc, List.append_assoc] at hl
      have := List.append_inj_left hl (Nat.le_antisymm h1 h2)
      rw [this]; exact ⟨rfl, rfl⟩
    | untilNot _ hn => exact absurd hl.symm (hn _ _)
    | ended _ _ => exact absurd hl hne
  | untilNot hne hn =>
    cases h' with
    | «until» _ _ => exact absurd hl (hn _ _)
    | untilNot _ _ => exact ⟨rfl, rfl⟩
    | ended _ _ => exact absurd hl hne
  | untilAny hb hw =>
    cases h' with
    | untilAny hb' hw' => rw [untilAny_unique hl hb hb' hw hw']; exact ⟨rfl, rfl⟩
    | untilAnyNot _ hn => exact absurd hb (hn _ (by rw [← hl]; simp))
    | ended _ _ => simp at hl
  | untilAnyNot hne hn =>
    cases h' with
    | untilAny hb' hw' => exact absurd hb' (hn _ (by rw [hl]; simp))
    | untilAnyNot _ _ => exact ⟨rfl, rfl⟩
    | ended _ _ => exact absurd hl hne
  | blanks hb hr =>
    cases h' with
    | blanks hb' hr' => exact ⟨rfl, blanks_unique hl hb hb' hr hr'⟩
    | ended h _ => exact absurd rfl h
  | token hne ht hb hr =>
    cases h' with
    | token _ ht' hb' hr' =>
      obtain ⟨rfl, rfl⟩ := token_unique hl ht ht' hb hb' hr hr'
      exact ⟨rfl, rfl⟩
    | ended _ _ => exact absurd hl hne
  | number hne ht hb hr hu hlt =>
    cases h' with
    | number _ ht' hb' hr' hu' =>
      obtain ⟨rfl, rfl⟩ := token_unique hl ht ht' hb hb' hr hr'
      exact ⟨by rw [unsigned_determined hu hu'], rfl⟩
    | numberNot _ ht' hb' hr' hn =>
      obtain ⟨rfl, rfl⟩ := token_unique hl ht ht' hb hb' hr hr'
      have := hn _ hu
      omega
    | ended _ _ => exact absurd hl hne
  | numberNot hne ht hb hr hn =>
    cases h' with
    | number _ ht' hb' hr' hu' hlt =>
      obtain ⟨rfl, rfl⟩ := token_unique hl ht ht' hb hb' hr hr'
      have := hn _ hu'
      omega
    | numberNot _ ht' hb' hr' hn =>
      obtain ⟨rfl, rfl⟩ := token_unique hl ht ht' hb hb' hr hr'
      exact ⟨rfl, rfl⟩
    | ended _ _ => exact absurd hl hne
  | ended h1 h2 =>
    cases h' with
    | ended _ _ => exact ⟨rfl, rfl⟩
    | expect hne => exact absurd hl.symm hne
    | expectNot hne _ => exact absurd hl.symm hne
    | char => simp at hl
    | digit _ => simp at hl
    | digitNot _ => simp at hl
    | «until» hne _ => exact absurd hl.symm hne
    | untilNot hne _ => exact absurd hl.symm hne
    | untilAny _ _ => simp at hl
    | untilAnyNot hne _ => exact absurd hl.symm hne
    | blanks _ _ => exact absurd rfl h1
    | token hne => exact absurd hl.symm hne
    | number hne => exact absurd hl.symm hne
    | numberNot hne => exact absurd hl.symm hne
    | remaining => exact absurd rfl h2
  | remaining =>
    cases h' with
    | remaining => rw [hl]; exact ⟨rfl, rfl⟩
    | ended _ h => exact absurd rfl h

/-- No text is lost or read twice: what the calls used up, put together, is the beginning of the text. -/
theorem C59_in_order (s : Bytes) (hs : AsciiText s) (ks : List PCall) :
    ∃ us, Reads (some s) ks (pcalls (Parser.new s) ks) us ∧ us.flatten <+: s := by
  obtain ⟨us, h⟩ := C59_reads s hs ks
  refine ⟨us, h, ?_⟩
  have key : ∀ {t : Option Bytes} {ks : List PCall} {outs : List POut} {us : List Bytes}, Reads t ks outs us →
      us.flatten <+: t.getD [] := by
    intro t ks outs us h
    induction h with
    | nil => simp
    | @call used rest k out ks outs us hg hr ih =>
      rw [List.flatten_cons]
      show used ++ us.flatten <+: used ++ rest
      rw [List.prefix_append_right_inj]
      by_cases hk : k = .remaining
      · rw [if_pos hk] at ih
        have : us.flatten = [] := List.prefix_nil.1 ih
        rw [this]; simp
      · rw [if_neg hk] at ih; exact ih
    | over _ ih => simpa using ih
  exact key h

theorem gives_no_panic {l used : Bytes} {k : PCall} : ¬ Gives l k .panic used := fun h => by cases h

theorem gives_remaining {l used : Bytes} {out : POut} (h : Gives l .remaining out used) : out = .text l := by
  cases h with
  | remaining => rfl
  | ended _ h => exact absurd rfl h

/-- No call panics. -/
theorem C59_no_panic (s : Bytes) (hs : AsciiText s) (ks : List PCall) : .panic ∉ pcalls (Parser.new s) ks := by
  obtain ⟨us, h⟩ := C59_reads s hs ks
  generalize pcalls (Parser.new s) ks = outs at h
  generalize some s = t at h
  induction h with
  | nil => simp
  | call hg _ ih =>
    rw [List.mem_cons, not_or]
    refine ⟨fun h => ?_, ih⟩
    subst h
    exact gives_no_panic hg
  | @over k _ _ _ _ ih =>
    rw [List.mem_cons, not_or]
    refine ⟨?_, ih⟩
    split <;> simp

/-- After a call of `parse_remaining`, which always succeeds the first time, no call returns any text, and
`parse_remaining` fails. -/
theorem C59_remaining_once (s : Bytes) (hs : AsciiText s) (ks ks' : List PCall) (hk : .remaining ∉ ks) :
    ∃ outs l, pcalls (Parser.new s) (ks ++ .remaining :: ks') =
      outs ++ .text l :: ks'.map fun k => if k = .blanks then .unit else .fail .unexpectedEof := by
  obtain ⟨us, h⟩ := C59_reads s hs (ks ++ .remaining :: ks')
  generalize pcalls (Parser.new s) (ks ++ .remaining :: ks') = outs at h
  have hover : ∀ {ks' : List PCall} {outs : List POut} {us : List Bytes}, Reads none ks' outs us →
      outs = ks'.map fun k => if k = .blanks then .unit else .fail .unexpectedEof := by
    intro ks'
    induction ks' with
    | nil => intro outs us h; cases h; rfl
    | cons k ks' ih => intro outs us h; cases h with | over h => rw [ih h]; rfl
  induction ks generalizing s outs us with
  | nil =>
    cases h with
    | call hg hr =>
      rw [if_pos rfl] at hr
      rw [hover hr]
      exact ⟨[], _, by rw [gives_remaining hg]; rfl⟩
  | cons k ks ih =>
    rw [List.mem_cons, not_or] at hk
    cases h with
    | @call used rest _ out _ outs us hg hr =>
      rw [if_neg (fun h => hk.1 h.symm)] at hr
      obtain ⟨outs', l, h1⟩ := ih rest (fun b hb => hs b (by simp [hb])) hk.2 us outs hr
      exact ⟨out :: outs', l, by rw [h1]; rfl⟩

/-- Witness: a request line, taken apart. -/
example : AsciiText b!"PUT  /x\tHTTP/1.1" ∧
    pcalls (Parser.new b!"PUT  /x\tHTTP/1.1") [.token, .until b!"\t", .blanks, .expect b!"HTTP/", .digit, .char, .number, .remaining,
      .remaining, .token, .blanks] =
    [.text b!"PUT", .text b!"/x", .unit, .unit, .num 1, .char 46, .num 1, .text [], .fail .unexpectedEof,
      .fail .unexpectedEof, .unit] := by
  refine ⟨by rw [← isAscii_iff]; decide, by decide +kernel⟩

end HttpIo
