import Verif.Lemmas.Body
import Verif.Lemmas.Panic
import Verif.Lemmas.Forward
import Verif.Spec.Grammar

/-! Lemmas for the RFC grammar. -/

namespace HttpIo
open Spec

theorem Spec.Delivers.end_unique {c : Cfg} {t t1 t2 : List Ev} {a : Bytes} (h1 : Delivers c t a t1) (h2 : Delivers c t a t2) :
    t1 = t2 := by
  have := h1.unique (x := []) (by simpa using h2)
  cases this; rfl

theorem tokenChar_facts {b : UInt8} (h : TokenChar b) : b.toNat < 128 ∧ b ≠ 13 ∧ b ≠ 58 ∧ b ≠ 32 ∧ b ≠ 9 ∧ VisChar b := by
  have : ∀ b ∈ b!"!#$%&'*+-.^_`|~0123456789ABCDEFGHIJKLMNOPQRSTUVWXYZabcdefghijklmnopqrstuvwxyz",
      b.toNat < 128 ∧ b ≠ 13 ∧ b ≠ 58 ∧ b ≠ 32 ∧ b ≠ 9 ∧ (33 ≤ b.toNat ∧ b.toNat ≤ 126) := by decide +kernel
  exact this b h

theorem visChar_facts {b : UInt8} (h : VisChar b) : b.toNat < 128 ∧ b ≠ 13 ∧ b ≠ 32 ∧ b ≠ 9 := by
  obtain ⟨h1, h2⟩ := h
  refine ⟨by omega, ?_, ?_, ?_⟩ <;> (rintro rfl; simp at h1)

theorem textChar_no_cr {b : UInt8} (h : TextChar b) : b ≠ 13 := by
  rintro rfl
  rcases h with h | h | h | h
  · simp at h
  · simp at h
  · exact (visChar_facts h).2.1 rfl
  · simp at h

theorem no_cr_of_text {v : Bytes} (h : ∀ b ∈ v, TextChar b) : (13 : UInt8) ∉ v := fun hm => textChar_no_cr (h _ hm) rfl

theorem no_cr_of_blanks {v : Bytes} (h : Blanks v) : (13 : UInt8) ∉ v := by
  intro hm; rcases h _ hm with h | h <;> simp at h

theorem isText_of_ascii {s : Bytes} (h : ∀ b ∈ s, b.toNat < 128) : IsText s := by
  apply isText_ascii
  simpa [isAscii, UInt8.lt_iff_toNat_lt] using h

theorem isText_join {a b : Bytes} (ha : IsText a) (hb : IsText b) : IsText (a ++ b) := by
  obtain ⟨u, h1, rfl⟩ := ha
  obtain ⟨v, h2, rfl⟩ := hb
  exact ⟨u ++ v, fun x hx => (List.mem_append.1 hx).elim (h1 x) (h2 x), by simp⟩

theorem no_cr_token {w : Bytes} (h : Token w) : (13 : UInt8) ∉ w := fun hm => (tokenChar_facts (h.2 _ hm)).2.1 rfl

theorem Spec.Field.Conforms.facts {f : Field} (h : f.Conforms) :
    f.line ≠ [] ∧ ¬ HasCrLf f.line ∧ ¬ StartsBlank f.line ∧ (58 : UInt8) ∉ f.name ∧ IsText f.name := by
  obtain ⟨h1, h2, h3, h4⟩ := h
  refine ⟨?_, ?_, ?_, ?_, ?_⟩
  · unfold Field.line; simp
  · apply not_hasCrLf_of_no_cr
    unfold Field.line Field.after
    simp only [List.mem_append, List.mem_singleton, not_or]
    exact ⟨⟨no_cr_token h1, by decide⟩, ⟨no_cr_of_blanks h2, no_cr_of_text h3.1⟩, no_cr_of_blanks h4⟩
  · rintro ⟨b, rest, h, hb⟩
    cases hn : f.name with
    | nil => exact h1.1 hn
    | cons x xs =>
      unfold Field.line at h
      rw [hn] at h
      simp only [List.cons_append, List.cons.injEq] at h
      have := tokenChar_facts (h1.2 x (by rw [hn]; simp))
      rw [h.1] at this
      rcases hb with rfl | rfl
      · exact this.2.2.2.1 rfl
      · exact this.2.2.2.2.1 rfl
  · intro hm; exact (tokenChar_facts (h1.2 _ hm)).2.2.1 rfl
  · exact isText_of_ascii fun b hb => (tokenChar_facts (h1.2 b hb)).1

theorem Spec.Field.Conforms.text {f : Field} (h : f.Conforms) : IsText f.line ↔ IsText f.value := by
  have hb : ∀ {l : Bytes}, Blanks l → IsText l := by
    intro l hl
    apply isText_of_ascii
    intro b hb
    rcases hl b hb with rfl | rfl <;> decide
  have hcut : ∀ {a b : Bytes}, Blanks a → IsText (a ++ b) → IsText b := by
    intro a b ha
    induction a with
    | nil => exact id
    | cons x xs ih =>
      intro ht
      have hx : x < 0x80 := by rcases ha x (by simp) with rfl | rfl <;> decide
      exact ih (fun y hy => ha y (by simp [hy])) (isText_split (a := []) hx (by simpa using ht)).2
  have hend : ∀ {a b : Bytes}, Blanks b → IsText (a ++ b) → IsText a := by
    intro a b hb' ht
    cases b with
    | nil => simpa using ht
    | cons x xs =>
      have hx : x < 0x80 := by rcases hb' x (by simp) with rfl | rfl <;> decide
      exact (isText_split hx ht).1
  obtain ⟨h1, h2, h3, h4⟩ := h
  unfold Field.line Field.after
  constructor
  · intro ht
    have := (isText_split (a := f.name) (x := 58) (b := f.pad ++ f.value ++ f.trail) (by decide) (by simpa using ht)).2
    rw [List.append_assoc] at this
    exact hend h4 (hcut h2 this)
  · intro ht
    refine isText_join (isText_join (isText_of_ascii fun b hb' => (tokenChar_facts (h1.2 b hb')).1) (isText_of_ascii ?_))
      (isText_join (isText_join (hb h2) ht) (hb h4))
    intro b hb'
    simp only [List.mem_singleton] at hb'
    subst hb'; decide

/-- Lines that do not begin with a blank are not joined. -/
theorem folded_plain {raw logical : List Bytes} (h : Folded raw logical) (hn : ∀ l ∈ raw, ¬ StartsBlank l) : logical = raw := by
  induction h with
  | nil => rfl
  | @line first conts rest logical h1 h2 _ ih =>
    cases conts with
    | nil =>
      rw [ih fun l hl => hn l (by simp [hl])]
      simp
    | cons x xs => exact absurd (h1 x (by simp)) (hn x (by simp))

/-- Two readings of a block as lines are the same, if the lines of one are known to be text. -/
theorem block_unique {c : Cfg} {ls ns : List Bytes} {t t1 t2 : List Ev} (hl : ∀ l ∈ ls, RawLine l)
    (hn : ∀ n ∈ ns, n ≠ [] ∧ ¬ HasCrLf n) (h1 : Delivers c t (blockBytes ls) t1) (h2 : Delivers c t (blockBytes ns) t2) :
    ls = ns ∧ t1 = t2 := by
  have ho : ∀ l, RawLine l → lineOutcome l = .ok (some l) := by
    intro l hl
    unfold lineOutcome
    rw [if_neg (by simp [hl.1]), if_pos ((validUtf8_iff l).2 hl.2.2)]
  have hne : ∀ n : Bytes, n ≠ [] → lineOutcome n ≠ .ok none ∧ ∀ l, lineOutcome n = .ok (some l) → n = l := by
    intro n hn
    unfold lineOutcome
    rw [if_neg (by simp [hn])]
    constructor <;> split <;> simp
  have hb : ∀ (l : Bytes) (ls : List Bytes), blockBytes (l :: ls) = (l ++ [13, 10]) ++ blockBytes ls := by
    intro l ls; simp [blockBytes]
  have hempty : ¬ HasCrLf ([] : Bytes) := not_hasCrLf_of_no_cr (by simp)
  have h0 : blockBytes [] = [] ++ [13, 10] := by simp [blockBytes]
  induction ls generalizing ns t with
  | nil =>
    cases ns with
    | nil => exact ⟨rfl, h1.end_unique h2⟩
    | cons n ns =>
      rw [hb] at h2
      obtain ⟨m, k1, _⟩ := h2.split
      have e2 := innerNextT_line (hn n (by simp)).2 k1
      rw [h0] at h1
      have e1 := innerNextT_line hempty h1
      rw [e1] at e2
      simp only [Prod.mk.injEq] at e2
      exact absurd e2.1.symm (hne n (hn n (by simp)).1).1
  | cons l ls ih =>
    rw [hb] at h1
    obtain ⟨m, g1, g2⟩ := h1.split
    have e1 := innerNextT_line (hl l (by simp)).2.1 g1
    rw [ho l (hl l (by simp))] at e1
    cases ns with
    | nil =>
      rw [h0] at h2
      have e2 := innerNextT_line hempty h2
      rw [e1] at e2
      simp [lineOutcome] at e2
    | cons n ns =>
      rw [hb] at h2
      obtain ⟨m', k1, k2⟩ := h2.split
      have e2 := innerNextT_line (hn n (by simp)).2 k1
      rw [e1] at e2
      simp only [Prod.mk.injEq] at e2
      have := (hne n (hn n (by simp)).1).2 l e2.1.symm
      subst this
      obtain ⟨rfl, rfl⟩ := ih (fun x hx => hl x (by simp [hx])) (fun x hx => hn x (by simp [hx])) g2 (e2.2 ▸ k2)
      exact ⟨rfl, rfl⟩

theorem split_colon {k k' v w : Bytes} (hk : (58 : UInt8) ∉ k) (hk' : (58 : UInt8) ∉ k') (h : k ++ 58 :: v = k' ++ 58 :: w) :
    k = k' ∧ v = w := by
  induction k generalizing k' with
  | nil =>
    cases k' with
    | nil => simpa using h
    | cons x xs => simp only [List.nil_append, List.cons_append, List.cons.injEq] at h; simp [← h.1] at hk'
  | cons x xs ih =>
    cases k' with
    | nil => simp only [List.nil_append, List.cons_append, List.cons.injEq] at h; simp [h.1] at hk
    | cons y ys =>
      simp only [List.cons_append, List.cons.injEq] at h
      obtain ⟨rfl, h⟩ := h
      obtain ⟨rfl, rfl⟩ := ih (fun hm => hk (by simp [hm])) (fun hm => hk' (by simp [hm])) h
      exact ⟨rfl, rfl⟩

/-- The pairs that are read of fields whose colon is followed by a space. -/
def fieldHist (fs : List Field) : List (Bytes × Bytes) := fs.map fun f => (f.name, f.after.tail)

theorem fields_of_hist {fs : List Field} {hist : List (Bytes × Bytes)} (hf : ∀ f ∈ fs, f.Conforms)
    (hc : ∀ kv ∈ hist, (58 : UInt8) ∉ kv.1) (h : (hist.map fun kv => kv.1 ++ [58, 32] ++ kv.2) = fs.map Field.line) :
    hist = fieldHist fs ∧ ∀ f ∈ fs, f.after.head? = some 32 := by
  induction fs generalizing hist with
  | nil => simp only [List.map_nil, List.map_eq_nil_iff] at h; simp [h, fieldHist]
  | cons f fs ih =>
    cases hist with
    | nil => simp at h
    | cons kv hist =>
      simp only [List.map_cons, List.cons.injEq] at h
      obtain ⟨h1, h2⟩ := h
      obtain ⟨g1, g2⟩ := ih (fun x hx => hf x (by simp [hx])) (fun x hx => hc x (by simp [hx])) h2
      unfold Field.line at h1
      obtain ⟨e1, e2⟩ := split_colon (v := 32 :: kv.2) (w := f.after) (hc kv (by simp)) (hf f (by simp)).facts.2.2.2.1
        (by simpa using h1)
      have : f.after.head? = some 32 := by rw [← e2]; rfl
      refine ⟨?_, ?_⟩
      · rw [g1]; unfold fieldHist; rw [List.map_cons, ← e2, ← e1]; rfl
      · intro x hx
        simp only [List.mem_cons] at hx
        rcases hx with rfl | hx
        · exact this
        · exact g2 x hx

theorem hist_of_fields {fs : List Field} (h : ∀ f ∈ fs, f.after.head? = some 32) :
    ((fieldHist fs).map fun kv => kv.1 ++ [58, 32] ++ kv.2) = fs.map Field.line := by
  unfold fieldHist
  rw [List.map_map]
  apply List.map_congr_left
  intro f hf
  have := h f hf
  unfold Field.line
  cases ha : f.after with
  | nil => rw [ha] at this; simp at this
  | cons x xs =>
    rw [ha] at this
    simp only [List.head?_cons, Option.some.injEq] at this
    simp [ha, this]

section
variable [CaseMap]

/-- The first line and the fields of a head that conforms are read as they are written, or not at all. -/
theorem headOf_fields {c : Cfg} {t t1 t2 : List Ev} {line line0 : Bytes} {hist : List (Bytes × Bytes)} {fs : List Field}
    (hl : line0 ≠ [] ∧ ¬ HasCrLf line0) (hf : ∀ f ∈ fs, f.Conforms)
    (hd : Delivers c t (blockBytes (line0 :: fs.map Field.line)) t1) (h : HeadOf c t line hist t2) :
    line = line0 ∧ t2 = t1 ∧ hist = fieldHist fs ∧ ∀ f ∈ fs, IsText f.line ∧ f.after.head? = some 32 := by
  obtain ⟨raw, h1, h2, h3, h4, h5, _⟩ := h
  obtain ⟨e, rfl⟩ := block_unique (ls := line :: raw) (by
      intro l hl
      simp only [List.mem_cons] at hl
      rcases hl with rfl | hl
      · exact h1
      · exact h2 l hl) (by
      intro n hn
      simp only [List.mem_cons, List.mem_map] at hn
      rcases hn with rfl | ⟨f, hf', rfl⟩
      · exact hl
      · exact ⟨(hf f hf').facts.1, (hf f hf').facts.2.1⟩) h3 hd
  simp only [List.cons.injEq] at e
  obtain ⟨rfl, rfl⟩ := e
  have := folded_plain h4 (by
    intro l hl
    obtain ⟨f, hf', rfl⟩ := List.mem_map.1 hl
    exact (hf f hf').facts.2.2.1)
  obtain ⟨k1, k2⟩ := fields_of_hist hf h5 this
  exact ⟨rfl, rfl, k1, fun f hf' => ⟨(h2 _ (List.mem_map.2 ⟨f, hf', rfl⟩)).2.2, k2 f hf'⟩⟩

theorem headOf_of_fields {c : Cfg} {t t1 : List Ev} {line : Bytes} {fs : List Field} (hl : RawLine line)
    (hf : ∀ f ∈ fs, f.Conforms) (hr : ∀ f ∈ fs, IsText f.line ∧ f.after.head? = some 32)
    (hd : Delivers c t (blockBytes (line :: fs.map Field.line)) t1)
    (hcl : ∀ v, LastWith (fun k => CaseMap.lower k = utf8 "content-length") (fieldHist fs) v →
      ∃ n, UnsignedText 10 v n ∧ n < 2 ^ 64) : HeadOf c t line (fieldHist fs) t1 := by
  refine ⟨fs.map Field.line, hl, ?_, hd, ?_, ?_, hcl⟩
  · intro l hl
    obtain ⟨f, hf', rfl⟩ := List.mem_map.1 hl
    exact ⟨(hf f hf').facts.1, (hf f hf').facts.2.1, (hr f hf').1⟩
  · rw [hist_of_fields fun f h => (hr f h).2]
    apply folded_self
    intro l hl
    obtain ⟨f, hf', rfl⟩ := List.mem_map.1 hl
    exact (hf f hf').facts.2.2.1
  · intro kv hkv
    obtain ⟨f, hf', rfl⟩ := List.mem_map.1 hkv
    exact (hf f hf').facts.2.2.2.1

end

/-! ### Request lines and status lines -/

theorem digit_vis {b : UInt8} {d : Nat} (h : DigitVal 10 b d) : VisChar b := by
  cases h with
  | dec d h _ =>
    have : ∀ d, d < 10 → 33 ≤ (UInt8.ofNat (48 + d)).toNat ∧ (UInt8.ofNat (48 + d)).toNat ≤ 126 := by decide
    exact this d h
  | lower d h1 _ h2 => omega
  | upper d h1 _ h2 => omega

theorem rfcVersion_facts {w : Bytes} {major minor : Nat} (h : RfcVersion w major minor) :
    VersionText w major minor ∧ (∀ b ∈ w, VisChar b) ∧ w ≠ [] := by
  obtain ⟨d1, d2, rfl, h1, h2⟩ := h
  have hh : ∀ b ∈ utf8 "HTTP/", 33 ≤ b.toNat ∧ b.toNat ≤ 126 := by decide +kernel
  refine ⟨⟨d1, d2, [], rfl, h1, h2⟩, ?_, by simp⟩
  intro b hb
  simp only [List.append_nil, List.mem_append, List.mem_singleton] at hb
  rcases hb with ((hb | rfl) | rfl) | rfl
  · exact hh b hb
  · exact digit_vis h1
  · exact ⟨by decide, by decide⟩
  · exact digit_vis h2

theorem firstToken_self {w : Bytes} (h : ∀ b ∈ w, VisChar b) : FirstToken w w :=
  ⟨fun b hb => ⟨(visChar_facts (h b hb)).2.2.1, (visChar_facts (h b hb)).2.2.2⟩, .inl rfl⟩

theorem rfcRequestLine_facts {line method target : Bytes} {major minor : Nat}
    (h : RfcRequestLine line method target major minor) :
    RawLine line ∧ (∀ b ∈ line, b = 32 ∨ VisChar b) := by
  obtain ⟨w, rfl, h1, h2, h3, h4⟩ := h
  have key : ∀ b ∈ method ++ [32] ++ target ++ [32] ++ w, b = 32 ∨ VisChar b := by
    intro b hb
    simp only [List.mem_append, List.mem_singleton] at hb
    rcases hb with (((hb | rfl) | hb) | rfl) | hb
    · exact .inr (tokenChar_facts (h1.2 b hb)).2.2.2.2.2
    · exact .inl rfl
    · exact .inr (h3 b hb)
    · exact .inl rfl
    · exact .inr ((rfcVersion_facts h4).2.1 b hb)
  refine ⟨⟨by simp, ?_, ?_⟩, key⟩
  · apply not_hasCrLf_of_no_cr
    intro hm
    rcases key _ hm with h | h
    · simp at h
    · exact (visChar_facts h).2.1 rfl
  · apply isText_of_ascii
    intro b hb
    rcases key b hb with rfl | h
    · decide
    · exact (visChar_facts h).1

theorem word_of_vis {w : Bytes} (h0 : w ≠ []) (h : ∀ b ∈ w, VisChar b) : Word w :=
  ⟨h0, fun b hb => ⟨(visChar_facts (h b hb)).2.2.1, (visChar_facts (h b hb)).2.2.2⟩⟩

theorem gap_one : Gap [32] := ⟨by simp, by simp⟩

/-- Words separated by single spaces are the only words of the text. -/
theorem word_split {w1 w2 r1 r2 : Bytes} {b1 b2 : UInt8} (h1 : ∀ b ∈ w1, b ≠ 32 ∧ b ≠ 9) (h2 : ∀ b ∈ w2, b ≠ 32 ∧ b ≠ 9)
    (hb1 : b1 = 32 ∨ b1 = 9) (hb2 : b2 = 32 ∨ b2 = 9) (h : w1 ++ b1 :: r1 = w2 ++ b2 :: r2) : w1 = w2 ∧ b1 = b2 ∧ r1 = r2 := by
  have e := FirstToken.unique (s := w1 ++ b1 :: r1) (t := w1) (t' := w2) ⟨h1, .inr ⟨b1, r1, rfl, hb1⟩⟩
    ⟨h2, .inr ⟨b2, r2, h, hb2⟩⟩
  subst e
  simpa using h

theorem numeral_vis {ds : Bytes} {n : Nat} (h : Numeral 10 ds n) : ds ≠ [] ∧ ∀ b ∈ ds, VisChar b := by
  induction h with
  | one h => exact ⟨by simp, by intro b hb; simp only [List.mem_singleton] at hb; subst hb; exact digit_vis h⟩
  | snoc _ h ih =>
    refine ⟨by simp, ?_⟩
    intro b hb
    simp only [List.mem_append, List.mem_singleton] at hb
    rcases hb with hb | rfl
    · exact ih.2 b hb
    · exact digit_vis h

theorem numeral_lt {ds : Bytes} {n : Nat} (h : Numeral 10 ds n) : n < 10 ^ ds.length := by
  induction h with
  | one h => cases h <;> simp <;> omega
  | snoc _ h ih =>
    have : ∀ {b : UInt8} {d : Nat}, DigitVal 10 b d → d < 10 := by intro b d h; cases h <;> omega
    have := this h
    simp only [List.length_append, List.length_singleton, Nat.pow_succ]
    omega

theorem rfcStatusLine_facts {line reason : Bytes} {major minor code : Nat} (h : RfcStatusLine line major minor code reason) :
    line ≠ [] ∧ ¬ HasCrLf line ∧ (IsText line ↔ IsText reason) ∧ StatusLine line major minor code ∧ code < 1000 := by
  obtain ⟨w, ds, rfl, h1, h2, h3, h4⟩ := h
  obtain ⟨v1, v2, v3⟩ := rfcVersion_facts h1
  obtain ⟨n1, n2⟩ := numeral_vis h3
  have hlt : code < 1000 := by have := numeral_lt h3; rw [h2] at this; simpa using this
  refine ⟨by simp, ?_, ?_, ?_, hlt⟩
  · apply not_hasCrLf_of_no_cr
    simp only [List.mem_append, List.mem_singleton, not_or]
    exact ⟨⟨⟨⟨fun hm => (visChar_facts (v2 _ hm)).2.1 rfl, by decide⟩, fun hm => (visChar_facts (n2 _ hm)).2.1 rfl⟩, by decide⟩,
      no_cr_of_text h4⟩
  · constructor
    · intro h
      exact (isText_split (a := w ++ [32] ++ ds) (x := 32) (b := reason) (by decide) (by simpa using h)).2
    · intro h
      refine isText_join (isText_of_ascii ?_) h
      intro b hb
      simp only [List.mem_append, List.mem_singleton] at hb
      rcases hb with ((hb | rfl) | hb) | rfl
      · exact (visChar_facts (v2 b hb)).1
      · decide
      · exact (visChar_facts (n2 b hb)).1
      · decide
  · refine ⟨w, [32], ds ++ [32] ++ reason, ds, by simp, ⟨(word_of_vis v3 v2).2, .inr ⟨32, ds ++ [32] ++ reason, by simp, .inl rfl⟩⟩,
      gap_one, ?_, v1, ⟨(word_of_vis n1 n2).2, .inr ⟨32, reason, by simp, .inl rfl⟩⟩, .inl h3, by omega⟩
    rintro ⟨b, rest, h, hb⟩
    cases ds with
    | nil => exact n1 rfl
    | cons x xs =>
      simp only [List.cons_append, List.cons.injEq] at h
      have := visChar_facts (n2 x (by simp))
      rw [h.1] at this
      rcases hb with rfl | rfl
      · exact this.2.2.1 rfl
      · exact this.2.2.2 rfl

/-- What the crate reads of a request line that conforms. -/
theorem rfcRequestLine_words [CaseMap] {line method target : Bytes} {major minor : Nat}
    (h : RfcRequestLine line method target major minor) {m : HttpMethod} {target' : Bytes} {major' minor' : Nat} :
    RequestLine line m target' major' minor' ↔
      CaseMap.upper method = utf8 (methodName m) ∧ target' = target ∧ major' = major ∧ minor' = minor := by
  obtain ⟨w, rfl, h1, h2, h3, h4⟩ := h
  obtain ⟨v1, v2, v3⟩ := rfcVersion_facts h4
  have hmeth : Word method := word_of_vis h1.1 fun b hb => (tokenChar_facts (h1.2 b hb)).2.2.2.2.2
  have htgt := word_of_vis h2 h3
  have hw := word_of_vis v3 v2
  constructor
  · rintro ⟨v, ⟨tok, g1, g2, rest, e, k1, ⟨k2, k2'⟩, k3, ⟨k4, k4'⟩, k5, k6, _⟩, k8⟩
    obtain ⟨x1, y1, rfl⟩ := List.exists_cons_of_ne_nil k2
    obtain ⟨x2, y2, rfl⟩ := List.exists_cons_of_ne_nil k4
    obtain ⟨rfl, _, e⟩ := word_split (r1 := target ++ 32 :: w) (r2 := y1 ++ target' ++ (x2 :: y2) ++ rest) hmeth.2 k1.2 (.inl rfl)
      (k2' x1 (by simp)) (by simpa using e)
    have hy : y1 = [] := by
      cases y1 with
      | nil => rfl
      | cons z zs =>
        obtain ⟨a, as, rfl⟩ := List.exists_cons_of_ne_nil h2
        simp only [List.cons_append, List.cons.injEq] at e
        have h := k2' z (by simp)
        have h' := htgt.2 a (by simp)
        rw [← e.1] at h
        rcases h with h | h
        · exact absurd h h'.1
        · exact absurd h h'.2
    subst hy
    obtain ⟨rfl, _, e⟩ := word_split (r1 := w) (r2 := y2 ++ rest) htgt.2 k3.2 (.inl rfl) (k4' x2 (by simp)) (by simpa using e)
    have hy : y2 = [] := by
      cases y2 with
      | nil => rfl
      | cons z zs =>
        obtain ⟨a, as, rfl⟩ := List.exists_cons_of_ne_nil v3
        simp only [List.cons_append, List.cons.injEq] at e
        have h := k4' z (by simp)
        have h' := hw.2 a (by simp)
        rw [← e.1] at h
        rcases h with h | h
        · exact absurd h h'.1
        · exact absurd h h'.2
    subst hy
    simp only [List.nil_append] at e
    subst e
    have hv := k6.unique (firstToken_self v2)
    subst hv
    obtain ⟨d1, d2, r, e1, a1, a2⟩ := k8
    obtain ⟨d1', d2', r', e2, b1, b2⟩ := v1
    rw [e1] at e2
    have hdet : ∀ {b : UInt8} {d d' : Nat}, DigitVal 10 b d → DigitVal 10 b d' → d = d' := by
      intro b d d' h h'
      have hx : ∀ {b : UInt8} {d : Nat}, DigitVal 10 b d → b.toNat = 48 + d := by
        intro b d h
        cases h with
        | dec d h _ => simp only [UInt8.toNat_ofNat']; omega
        | lower d h1 _ h2 => omega
        | upper d h1 _ h2 => omega
      have := hx h; have := hx h'; omega
    simp only [List.append_assoc, List.append_cancel_left_eq, List.cons_append, List.nil_append, List.cons.injEq] at e2
    obtain ⟨rfl, _, rfl, _⟩ := e2
    exact ⟨k5, rfl, hdet a1 b1, hdet a2 b2⟩
  · rintro ⟨k, rfl, rfl, rfl⟩
    exact ⟨w, ⟨method, [32], [32], w, rfl, hmeth, gap_one, htgt, gap_one, k, firstToken_self v2, v3⟩, v1⟩

theorem digit_no_semi {r d : Nat} {b : UInt8} (h : DigitVal r b d) : b ≠ 59 := by
  cases h with
  | dec d h1 h2 =>
    have : ∀ d, d < 10 → UInt8.ofNat (48 + d) ≠ 59 := by decide
    exact this d h1
  | lower d h1 h2 h3 =>
    have : ∀ d, d < 36 → UInt8.ofNat (97 + (d - 10)) ≠ 59 := by decide
    exact this d h2
  | upper d h1 h2 h3 =>
    have : ∀ d, d < 36 → UInt8.ofNat (65 + (d - 10)) ≠ 59 := by decide
    exact this d h2

theorem numeral_no_semi {r n : Nat} {ds : Bytes} (h : Numeral r ds n) : (59 : UInt8) ∉ ds := by
  induction h with
  | one h => simpa using (digit_no_semi h).symm
  | snoc _ h ih =>
    simp only [List.mem_append, List.mem_singleton, not_or]
    exact ⟨ih, (digit_no_semi h).symm⟩

theorem unsignedText_no_semi {r n : Nat} {t : Bytes} (h : UnsignedText r t n) : (59 : UInt8) ∉ t := by
  rcases h with h | ⟨ds, rfl, h⟩
  · exact numeral_no_semi h
  · simp only [List.mem_cons, not_or]
    exact ⟨by decide, numeral_no_semi h⟩

theorem numeral_no_cr {r n : Nat} {ds : Bytes} (h : Numeral r ds n) : (13 : UInt8) ∉ ds := by
  induction h with
  | one h => simpa using (digitVal_ascii h).2.1.symm
  | snoc _ h ih =>
    simp only [List.mem_append, List.mem_singleton, not_or]
    exact ⟨ih, (digitVal_ascii h).2.1.symm⟩

end HttpIo
