import Verif.Props.Message
import Verif.Spec.Forward

/-! Messages that are passed on: what can be said of parsed heads, and reading back what is written for them. -/

namespace HttpIo
open Spec

/-! ### What parsed heads look like -/

theorem not_hasCrLf_blank {a l : Bytes} (ha : ¬ HasCrLf a) (hl : ¬ HasCrLf l) (hb : StartsBlank l) : ¬ HasCrLf (a ++ l) := by
  obtain ⟨b, rest, rfl, hb⟩ := hb
  refine not_hasCrLf_join ?_ ?_ ha fun h => hl (hasCrLf_append_right (a := [b]) h)
  · rcases hb with rfl | rfl <;> decide
  · rcases hb with rfl | rfl <;> decide

/-- Unfolding brings no CR LF together. -/
theorem folded_noCrLf {raw logical : List Bytes} (hf : Folded raw logical) (hraw : ∀ l ∈ raw, RawLine l) :
    ∀ l ∈ logical, ¬ HasCrLf l := by
  induction hf with
  | nil => simp
  | @line first conts rest logical hconts hrest hf ih =>
    intro l hl
    simp only [List.mem_cons] at hl
    rcases hl with rfl | hl
    · have key : ∀ (cs : List Bytes) (a : Bytes), ¬ HasCrLf a → (∀ x ∈ cs, StartsBlank x ∧ ¬ HasCrLf x) →
          ¬ HasCrLf (a ++ cs.flatten) := by
        intro cs
        induction cs with
        | nil => intro a ha _; simpa using ha
        | cons x cs ihc =>
          intro a ha hcs
          rw [List.flatten_cons, ← List.append_assoc]
          exact ihc _ (not_hasCrLf_blank ha (hcs x (by simp)).2 (hcs x (by simp)).1) fun y hy => hcs y (by simp [hy])
      exact key conts first (hraw first (by simp)).2.1 fun x hx => ⟨hconts x hx, (hraw x (by simp [hx])).2.1⟩
    · exact ih (fun x hx => hraw x (by simp [hx])) l hl

theorem insertAll_mem {hist m : List (Bytes × Bytes)} {kv : Bytes × Bytes} (h : kv ∈ insertAll hist m) :
    kv ∈ hist ∨ kv ∈ m := by
  induction hist generalizing m with
  | nil => exact .inr h
  | cons x hist ih =>
    have h' : kv ∈ insertAll hist (mapInsert x.1 x.2 m) := h
    rcases ih h' with h1 | h1
    · exact .inl (by simp [h1])
    · rcases mapInsert_mem h1 with h2 | h2
      · exact .inl (by simp [h2])
      · exact .inr h2

section
variable [CaseMap]

theorem parseLines_mem {logical : List Bytes} (ht : ∀ l ∈ logical, IsText l) {hds : List HttpHeader}
    (h : parseLines logical = .ok hds) :
    ∀ hd ∈ hds, ∃ l ∈ logical, ∃ k v, HeaderLine l k v ∧ hd = ⟨CaseMap.lower k, v⟩ := by
  induction logical generalizing hds with
  | nil => simp only [parseLines, Res.ok.injEq] at h; subst h; simp
  | cons l ls ih =>
    simp only [parseLines] at h
    cases hdes : HttpHeader.deserialize l with
    | err e => rw [hdes] at h; simp at h
    | panic => rw [hdes] at h; simp at h
    | ok hd =>
      rw [hdes] at h
      dsimp only at h
      cases hp : parseLines ls with
      | err e => rw [hp] at h; simp [Res.map] at h
      | panic => rw [hp] at h; simp [Res.map] at h
      | ok r =>
        rw [hp] at h
        simp only [Res.map, Res.ok.injEq] at h
        subst h
        intro x hx
        simp only [List.mem_cons] at hx
        rcases hx with rfl | hx
        · obtain ⟨k, v, h1, h2⟩ := (HttpHeader.deserialize_iff ((validUtf8_iff l).2 (ht l (by simp))) x).1 hdes
          exact ⟨l, by simp, k, v, h1, h2⟩
        · obtain ⟨l', h1, h2⟩ := ih (fun y hy => ht y (by simp [hy])) hp x hx
          exact ⟨l', by simp [h1], h2⟩

omit [CaseMap] in
theorem isText_split {a b : Bytes} {x : UInt8} (hx : x < 0x80) (h : IsText (a ++ x :: b)) : IsText a ∧ IsText b := by
  have := validUtf8_split hx _ _ ((validUtf8_iff _).2 h)
  exact ⟨(validUtf8_iff _).1 this.1, (validUtf8_iff _).1 this.2⟩

/-- A header that can be sent, except that its name may begin with a blank. -/
def Sendable' (kv : Bytes × Bytes) : Prop :=
  IsText kv.1 ∧ (58 : UInt8) ∉ kv.1 ∧ ¬ HasCrLf kv.1 ∧ IsText kv.2 ∧ ¬ HasCrLf kv.2

/-- The headers of a parsed head can be sent, except that names may begin with blanks. -/
theorem parseHead_sendable {σ α : Type} [LawfulReader σ] (hk : CaseKeeps) {c : Cfg} {start : Bytes → Res α} {s s' : σ}
    {a : α} {hs : HttpHeaders} {enc : Option Bytes} {n : Option Nat}
    (h : parseHead c start s = (.ok (a, hs, enc, n), s')) :
    ∀ kv ∈ hs.entries, CaseMap.lower kv.1 = kv.1 ∧ Sendable' kv := by
  obtain ⟨line, raw, hl, hraw, hst, hd⟩ := parseHead_inv h
  obtain ⟨logical, hf⟩ := folded_exists raw
  have hb := (parseHead_block (start := start) hl hraw hf hd).1
  have htext := folded_isText hf hraw
  have hno := folded_noCrLf hf hraw
  rw [h] at hb
  unfold headOutcome at hb
  rw [hst] at hb
  dsimp only at hb
  cases hp : parseLines logical with
  | err e => rw [hp] at hb; simp at hb
  | panic => rw [hp] at hb; simp at hb
  | ok hds =>
    rw [hp] at hb
    dsimp only at hb
    cases hcl : contentLengthOf (HttpHeaders.fromVec hds) with
    | err e => rw [hcl] at hb; simp at hb
    | panic => rw [hcl] at hb; simp at hb
    | ok n' =>
      rw [hcl] at hb
      simp only [Res.ok.injEq, Prod.mk.injEq, true_and] at hb
      rw [hb.1, fromVec_entries]
      intro kv hkv
      rcases insertAll_mem hkv with h1 | h1
      · obtain ⟨hd, hhd, rfl⟩ := List.mem_map.1 h1
        obtain ⟨l, hl', k, v, ⟨rfl, hc⟩, rfl⟩ := parseLines_mem htext hp hd hhd
        have e1 : k ++ [58, 32] ++ v = k ++ 58 :: (32 :: v) := by simp
        have t1 := htext _ hl'
        have n1 := hno _ hl'
        rw [e1] at t1 n1
        obtain ⟨t2, t3⟩ := isText_split (by decide) t1
        have t4 := (isText_split (a := []) (by decide) t3).2
        refine ⟨CaseMap.lower_idem _, hk.text _ t2, hk.colon _ t2 hc, hk.crlf _ t2 fun hx => n1 (hasCrLf_append_left hx),
          t4, fun hx => n1 ?_⟩
        have := hasCrLf_append_right (a := k ++ [58, 32]) hx
        rwa [e1] at this
      · simp at h1

/-! ### Reading back -/

/-- Header lines of which only the first may begin with a blank are read as they are. -/
theorem deserialize_blankFirst {σ : Type} [LawfulReader σ] {c : Cfg} {s : σ} {h : HttpHeaders} {t' : List Ev}
    (hs : SortedNames h.entries) (hl : ∀ kv ∈ h.entries, CaseMap.lower kv.1 = kv.1)
    (hw : ∀ kv ∈ h.entries, Sendable' kv) (hb : BlankFirst h.entries)
    (hd : Delivers c (trace s) (headerText h.entries ++ [13, 10]) t') :
    ∃ s', HttpHeaders.deserialize c s = (.ok h, s') ∧ trace s' = t' := by
  rw [← blockBytes_map] at hd
  have raw : ∀ l ∈ h.entries.map (fun kv => kv.1 ++ [58, 32] ++ kv.2), RawLine l := by
    intro l hl
    obtain ⟨kv, hkv, rfl⟩ := List.mem_map.1 hl
    obtain ⟨h1, _, h3, h5, h6⟩ := hw kv hkv
    refine ⟨by simp, ?_, isText_append (isText_append h1 (isText_ascii (by decide))) h5⟩
    rw [show kv.1 ++ [58, 32] ++ kv.2 = kv.1 ++ 58 :: ([] ++ 32 :: kv.2) by simp]
    exact not_hasCrLf_join (by decide) (by decide) h3 (not_hasCrLf_join (by decide) (by decide) not_hasCrLf_nil h6)
  have fold : Folded (h.entries.map fun kv => kv.1 ++ [58, 32] ++ kv.2) (h.entries.map fun kv => kv.1 ++ [58, 32] ++ kv.2) := by
    cases he : h.entries with
    | nil => exact .nil
    | cons kv tl =>
      rw [he] at hb
      have tail : ∀ l ∈ tl.map (fun kv => kv.1 ++ [58, 32] ++ kv.2), ¬ StartsBlank l := by
        intro l hl
        obtain ⟨kv, hkv, rfl⟩ := List.mem_map.1 hl
        have := hb kv hkv
        rintro ⟨b, rest, he, hb⟩
        cases hk : kv.1 with
        | nil =>
          rw [hk] at he
          simp only [List.nil_append, List.cons_append, List.cons.injEq] at he
          rw [← he.1] at hb; revert hb; decide
        | cons x k =>
          rw [hk] at he this
          simp only [List.cons_append, List.cons.injEq] at he
          exact this ⟨x, k, rfl, by rw [he.1]; exact hb⟩
      have := Folded.line (first := kv.1 ++ [58, 32] ++ kv.2) (conts := []) (by simp)
        (fun x hx => tail x (List.mem_of_mem_head? hx)) (folded_self tail)
      simpa using this
  obtain ⟨s', h1, h2⟩ := deserialize_hist fold raw (fun kv hkv => (hw kv hkv).2.1) hd
  refine ⟨s', ?_, h2⟩
  rw [h1]
  have : (h.entries.map fun kv => (CaseMap.lower kv.1, kv.2)) = h.entries := by
    conv => rhs; rw [← List.map_id h.entries]
    apply List.map_congr_left
    intro kv hkv
    rw [hl kv hkv]; rfl
  rw [this, insertAll_self hs]

/-- A head whose start line parses and whose headers came from a head. -/
theorem parseHead_again {σ τ α β : Type} [LawfulReader σ] [LawfulReader τ] (hk : CaseKeeps) {c c' : Cfg}
    {start : Bytes → Res α} {s s' : σ} {a : α} {hs : HttpHeaders} {enc : Option Bytes} {n : Option Nat}
    (h : parseHead c start s = (.ok (a, hs, enc, n), s')) (hb : BlankFirst hs.entries)
    {start' : Bytes → Res β} {line : Bytes} {b : β} (hl : RawLine line) (hst : start' line = .ok b) {u : τ} {t' : List Ev}
    (hd : Delivers c' (trace u) (line ++ [13, 10] ++ headerText hs.entries ++ [13, 10]) t') :
    ∃ u', parseHead c' start' u = (.ok (b, hs, enc, n), u') ∧ trace u' = t' := by
  obtain ⟨f1, f2, f3⟩ := parseHead_framing h
  have hw := parseHead_sendable hk h
  rw [List.append_assoc] at hd
  obtain ⟨m, hm1, hm2⟩ := hd.split
  obtain ⟨u1, h1, h2⟩ := expectNext_line hl hm1
  obtain ⟨u2, h3, h4⟩ := deserialize_blankFirst f1 (fun kv hkv => (hw kv hkv).1) (fun kv hkv => (hw kv hkv).2) hb
    (s := u1) (by rw [h2]; exact hm2)
  refine ⟨u2, ?_, h4⟩
  unfold parseHead
  rw [h1]; dsimp only
  rw [hst]; dsimp only
  rw [h3]; dsimp only
  rw [f3, f2]

theorem folded_count {raw logical : List Bytes} (hf : Folded raw logical) :
    logical.length ≤ raw.length ∧ ((∃ l ∈ raw.tail, StartsBlank l) → logical.length < raw.length) := by
  induction hf with
  | nil => simp
  | @line first conts rest logical hconts hrest hf ih =>
    obtain ⟨ih1, ih2⟩ := ih
    simp only [List.length_cons, List.length_append, List.tail_cons]
    refine ⟨by omega, ?_⟩
    rintro ⟨l, hl, hb⟩
    rcases List.mem_append.1 hl with h | h
    · have := List.length_pos_of_mem h; omega
    · cases rest with
      | nil => simp at h
      | cons x rest =>
        rcases List.mem_cons.1 h with rfl | h
        · exact absurd hb (hrest l rfl)
        · have := ih2 ⟨l, h, hb⟩; omega

theorem parseLines_length {ls : List Bytes} {hds : List HttpHeader} (h : parseLines ls = .ok hds) : hds.length = ls.length := by
  induction ls generalizing hds with
  | nil => simp only [parseLines, Res.ok.injEq] at h; subst h; rfl
  | cons l ls ih =>
    unfold parseLines at h
    split at h <;> try (simp at h; done)
    cases hp : parseLines ls with
    | err e => rw [hp] at h; simp [Res.map] at h
    | panic => rw [hp] at h; simp [Res.map] at h
    | ok x => rw [hp] at h; simp only [Res.map, Res.ok.injEq] at h; subst h; simp [ih hp]

theorem mapInsert_length (k v : Bytes) (m : List (Bytes × Bytes)) : (mapInsert k v m).length ≤ m.length + 1 := by
  induction m with
  | nil => simp [mapInsert]
  | cons x m ih =>
    unfold mapInsert
    split
    · simp
    split
    · simp
    · simp only [List.length_cons]; omega

theorem insertAll_length (hist m : List (Bytes × Bytes)) : (insertAll hist m).length ≤ m.length + hist.length := by
  induction hist generalizing m with
  | nil => exact Nat.le_refl _
  | cons x hist ih =>
    have h1 := ih (mapInsert x.1 x.2 m)
    have h2 := mapInsert_length x.1 x.2 m
    rw [show insertAll (x :: hist) m = insertAll hist (mapInsert x.1 x.2 m) from rfl]
    simp only [List.length_cons]; omega

/-- Headers of which another than the first begins with a blank are not read as they were written. -/
theorem parseHead_changed {σ τ α β : Type} [LawfulReader σ] [LawfulReader τ] (hk : CaseKeeps) {c c' : Cfg}
    {start : Bytes → Res α} {s s' : σ} {a : α} {hs : HttpHeaders} {enc : Option Bytes} {n : Option Nat}
    (h : parseHead c start s = (.ok (a, hs, enc, n), s')) (hb : ¬ BlankFirst hs.entries)
    {start' : Bytes → Res β} {line : Bytes} (hl : RawLine line) {u u' : τ} {t' : List Ev}
    (hd : Delivers c' (trace u) (line ++ [13, 10] ++ headerText hs.entries ++ [13, 10]) t') {x}
    (hx : parseHead c' start' u = (.ok x, u')) : x.2.1 ≠ hs := by
  have hw := parseHead_sendable hk h
  have raw : ∀ l ∈ hs.entries.map (fun kv => kv.1 ++ [58, 32] ++ kv.2), RawLine l := by
    intro l hl
    obtain ⟨kv, hkv, rfl⟩ := List.mem_map.1 hl
    obtain ⟨h1, _, h3, h5, h6⟩ := (hw kv hkv).2
    refine ⟨by simp, ?_, isText_append (isText_append h1 (isText_ascii (by decide))) h5⟩
    rw [show kv.1 ++ [58, 32] ++ kv.2 = kv.1 ++ 58 :: ([] ++ 32 :: kv.2) by simp]
    exact not_hasCrLf_join (by decide) (by decide) h3 (not_hasCrLf_join (by decide) (by decide) not_hasCrLf_nil h6)
  obtain ⟨logical, hf⟩ := folded_exists (hs.entries.map fun kv => kv.1 ++ [58, 32] ++ kv.2)
  have hlt : logical.length < hs.entries.length := by
    have := (folded_count hf).2 ?_
    · simpa using this
    · unfold BlankFirst at hb
      simp only [Classical.not_forall, Classical.not_not] at hb
      obtain ⟨kv, hkv, b, tl, he, hbl⟩ := hb
      refine ⟨kv.1 ++ [58, 32] ++ kv.2, ?_, b, tl ++ [58, 32] ++ kv.2, by rw [he]; simp, hbl⟩
      rw [← List.map_tail]
      exact List.mem_map_of_mem hkv
  have hblock := (parseHead_block (start := start') (s := u) (c := c') (t' := t') hl raw hf (by
    rw [show blockBytes (line :: hs.entries.map fun kv => kv.1 ++ [58, 32] ++ kv.2) = line ++ [13, 10] ++
      blockBytes (hs.entries.map fun kv => kv.1 ++ [58, 32] ++ kv.2) by simp [blockBytes], blockBytes_map, ← List.append_assoc]
    exact hd)).1
  rw [hx] at hblock
  unfold headOutcome at hblock
  intro he
  split at hblock <;> try (simp at hblock; done)
  split at hblock <;> try (simp at hblock; done)
  rename_i hds hp
  split at hblock <;> try (simp at hblock; done)
  simp only [Res.ok.injEq] at hblock
  rw [hblock] at he
  have := congrArg (fun h : HttpHeaders => h.entries.length) he
  dsimp only at this
  rw [fromVec_entries] at this
  have h1 := insertAll_length (hds.map fun hd => (hd.key, hd.value)) []
  have h2 := parseLines_length hp
  simp only [List.length_nil, List.length_map, Nat.zero_add] at h1
  omega

end

/-! ### Start lines -/

theorem version_lt {tok : Bytes} {v : HttpVersion} (h : HttpVersion.fromStr tok = .ok v) :
    v.major < 10 ∧ v.minor < 10 := by
  unfold HttpVersion.fromStr at h
  split at h <;> try (simp at h; done)
  split at h <;> try (simp at h; done)
  rename_i major p2 hp2
  split at h <;> try (simp at h; done)
  split at h <;> try (simp at h; done)
  rename_i minor p4 hp4
  simp only [Res.ok.injEq] at h
  subst h
  obtain ⟨d1, _, _, hd1, _⟩ := Parser.parseDigit_ok_inv hp2
  obtain ⟨d2, _, _, hd2, _⟩ := Parser.parseDigit_ok_inv hp4
  constructor
  · cases hd1 <;> assumption
  · cases hd2 <;> assumption

/-- What a parsed status line says. -/
theorem parseStatusLine_inv {line : Bytes} {v : HttpVersion} {st : HttpStatus} (h : parseStatusLine line = .ok (v, st)) :
    v.major < 10 ∧ v.minor < 10 ∧ HttpStatus.fromCode st.toCode = st := by
  unfold parseStatusLine at h
  split at h <;> try (simp at h; done)
  split at h <;> try (simp at h; done)
  rename_i w hw
  split at h <;> try (simp at h; done)
  split at h <;> simp only [Res.ok.injEq, Prod.mk.injEq, reduceCtorEq] at h
  rename_i st' hst
  obtain ⟨rfl, rfl⟩ := h
  refine ⟨(version_lt hw).1, (version_lt hw).2, ?_⟩
  unfold HttpStatus.fromStr at hst
  split at hst <;> simp only [Res.ok.injEq, reduceCtorEq] at hst
  rw [← hst, C01_code_lossless]

theorem head_dropWhile (p : UInt8 → Bool) (l : Bytes) : ∀ b, (l.dropWhile p).head? = some b → p b = false := by
  induction l with
  | nil => simp
  | cons a l ih =>
    intro b hb
    rw [List.dropWhile_cons] at hb
    split at hb
    · exact ih b hb
    · rename_i hp
      simp only [List.head?_cons, Option.some.injEq] at hb
      rw [← hb]; simpa using hp

/-- A token of valid text: what it looks like, and what comes after it. -/
theorem Parser.parseToken_shape (pre post : Bytes) (hne : post ≠ []) (h : validUtf8 post = true) :
    ∃ tok mid post', post = tok ++ mid ++ post' ∧ validUtf8 tok = true ∧ validUtf8 post' = true ∧
      (∀ b ∈ tok, b ≠ 32 ∧ b ≠ 9) ∧ (∀ b, post'.head? = some b → b ≠ 32 ∧ b ≠ 9) ∧
      (∀ b, post.head? = some b → b ≠ 32 ∧ b ≠ 9 → tok ≠ []) ∧
      Parser.parseToken ⟨pre ++ post, pre.length⟩ =
        (.ok tok, ⟨(pre ++ tok ++ mid) ++ post', (pre ++ tok ++ mid).length⟩) := by
  rcases Parser.parseToken_valid pre post h with ⟨e, he⟩ | ⟨tok, mid, post', h1, h2, h3⟩
  · rw [Parser.parseToken_eq pre post hne h] at he; simp at he
  · have e := Parser.parseToken_eq pre post hne h
    rw [h3] at e
    simp only [Prod.mk.injEq, Res.ok.injEq, Parser.mk.injEq] at e
    obtain ⟨e1, _, e3⟩ := e
    have hall := all_takeWhile (fun b => !Parser.isBlank b) post
    rw [← e1] at hall
    have hsplit := List.takeWhile_append_dropWhile (p := fun b => !Parser.isBlank b) (l := post)
    rw [← e1] at hsplit
    have hsplit2 := List.takeWhile_append_dropWhile (p := Parser.isBlank) (l := post.dropWhile fun b => !Parser.isBlank b)
    have hmid : mid ++ post' = post.dropWhile (fun b => !Parser.isBlank b) := by
      rw [h1, List.append_assoc] at hsplit
      rw [h1, List.append_assoc]
      exact (List.append_cancel_left hsplit).symm
    have hlen : mid.length = ((post.dropWhile fun b => !Parser.isBlank b).takeWhile Parser.isBlank).length := by
      rw [← e1] at e3
      simp only [List.length_append] at e3
      omega
    have hpost : post' = (post.dropWhile fun b => !Parser.isBlank b).dropWhile Parser.isBlank := by
      rw [← hsplit2] at hmid
      exact (List.append_inj hmid hlen).2
    refine ⟨tok, mid, post', h1, ?_, h2, ?_, ?_, ?_, h3⟩
    · cases hd : post.dropWhile (fun b => !Parser.isBlank b) with
      | nil => rw [hd, List.append_nil] at hsplit; rw [hsplit]; exact h
      | cons b q =>
        have hb := head_dropWhile (fun b => !Parser.isBlank b) post b (by rw [hd]; rfl)
        rw [hd] at hsplit
        rw [← hsplit] at h
        refine (validUtf8_split ?_ _ _ h).1
        simp only [Bool.not_eq_false', Parser.isBlank, Bool.or_eq_true, beq_iff_eq] at hb
        rcases hb with rfl | rfl <;> decide
    · intro b hb
      exact isBlank_false.1 (by simpa using hall b hb)
    · intro b hb
      rw [hpost] at hb
      exact isBlank_false.1 (head_dropWhile _ _ b hb)
    · intro b hb hnb
      cases post with
      | nil => simp at hb
      | cons x q =>
        simp only [List.head?_cons, Option.some.injEq] at hb
        subst hb
        rw [e1, List.takeWhile_cons, isBlank_false.2 hnb]
        simp

/-- What a parsed request line says. -/
theorem parseRequestLine_inv [CaseMap] {line : Bytes} (hl : RawLine line) {m : HttpMethod} {uri : Bytes} {v : HttpVersion}
    (h : parseRequestLine line = .ok (m, uri, v)) : SendableTarget uri ∧ v.major < 10 ∧ v.minor < 10 := by
  have hval := (validUtf8_iff _).2 hl.2.2
  obtain ⟨t1, m1, q1, e1, _, v1, _, b1, _, p1⟩ := Parser.parseToken_shape [] line hl.1 hval
  simp only [List.nil_append, List.length_nil] at p1
  unfold parseRequestLine Parser.new at h
  rw [p1] at h
  dsimp only at h
  cases hm : HttpMethod.fromStr t1 with
  | err e => rw [hm] at h; simp at h
  | panic => rw [hm] at h; simp at h
  | ok m' =>
    rw [hm] at h
    dsimp only at h
    cases hq : q1 with
    | nil => rw [hq, List.append_nil, Parser.parseToken_nil] at h; simp at h
    | cons x q =>
      have hne : q1 ≠ [] := by rw [hq]; simp
      obtain ⟨t2, m2, q2, e2, w2, _, k2, _, n2, p2⟩ := Parser.parseToken_shape (t1 ++ m1) q1 hne v1
      rw [p2] at h
      dsimp only at h
      cases ht3 : Parser.parseToken ⟨t1 ++ m1 ++ t2 ++ m2 ++ q2, (t1 ++ m1 ++ t2 ++ m2).length⟩ with
      | mk r3 p3 =>
        rw [ht3] at h
        cases r3 with
        | err e => simp at h
        | panic => simp at h
        | ok t3 =>
          dsimp only at h
          cases hv : HttpVersion.fromStr t3 with
          | err e => rw [hv] at h; simp at h
          | panic => rw [hv] at h; simp at h
          | ok v' =>
            rw [hv] at h
            simp only [Res.ok.injEq, Prod.mk.injEq] at h
            obtain ⟨rfl, rfl, rfl⟩ := h
            refine ⟨⟨n2 x (by rw [hq]; rfl) (b1 x (by rw [hq]; rfl)), (validUtf8_iff _).1 w2, fun hx => (k2 _ hx).1 rfl,
              fun hx => (k2 _ hx).2 rfl, fun hx => hl.2.1 ?_⟩, version_lt hv⟩
            rw [e1, e2, show t1 ++ m1 ++ (t2 ++ m2 ++ q2) = (t1 ++ m1) ++ (t2 ++ (m2 ++ q2)) by simp]
            exact hasCrLf_append_right (hasCrLf_append_left hx)

end HttpIo
