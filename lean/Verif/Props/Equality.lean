import Verif.Props.Codes
import Verif.Props.Headers
import Verif.Lemmas.Forward

/-! C134: what `==` says about header sets and statuses. -/

namespace HttpIo
open Spec

variable [CaseMap]

/-- The header sets a program gets by starting from none, by parsing a block, by collecting pairs whose names are
lower-cased, and by inserting. -/
inductive Spec.Made : HttpHeaders → Prop
  | new : Made HttpHeaders.new
  | received {σ : Type} [LawfulReader σ] {c : Cfg} {s s' : σ} {h : HttpHeaders} :
      HttpHeaders.deserialize c s = (.ok h, s') → Made h
  | collected {l : List (Bytes × Bytes)} : (∀ kv ∈ l, CaseMap.lower kv.1 = kv.1) → Made (HttpHeaders.fromIter l)
  | inserted {h : HttpHeaders} (k v : Bytes) : Made h → Made (h.insert k v)

theorem header_lower {line : Bytes} {hd : HttpHeader} (h : HttpHeader.deserialize line = .ok hd) :
    CaseMap.lower hd.key = hd.key := by
  unfold HttpHeader.deserialize at h
  split at h
  · simp at h
  · simp at h
  · split at h
    · simp at h
    · simp at h
    · split at h
      · simp at h
      · simp at h
      · simp only [Res.ok.injEq] at h
        rw [← h]
        exact CaseMap.lower_idem _

theorem loop_lower {σ : Type} [LawfulReader σ] {c : Cfg} {item : Option (Except Err Bytes)} {acc l : List HttpHeader}
    {s s' : σ} (h : HttpHeaders.deserializeLoop c item acc s = (.ok l, s'))
    (ha : ∀ hd ∈ acc, CaseMap.lower hd.key = hd.key) : ∀ hd ∈ l, CaseMap.lower hd.key = hd.key := by
  fun_induction HttpHeaders.deserializeLoop c item acc s with
  | case1 acc s => simp only [Prod.mk.injEq, Res.ok.injEq] at h; rw [← h.1]; exact ha
  | case2 acc s e => simp at h
  | case3 acc s line line' item' s1 hg hd hh ih =>
    refine ih h fun x hx => ?_
    rcases List.mem_append.1 hx with hx | hx
    · exact ha x hx
    · rw [List.mem_singleton.1 hx]; exact header_lower hh
  | case4 => simp at h
  | case5 => simp at h

/-- The names of such a set are in order and lower-cased. -/
theorem made_normal {h : HttpHeaders} (hm : Made h) :
    SortedNames h.entries ∧ ∀ kv ∈ h.entries, CaseMap.lower kv.1 = kv.1 := by
  induction hm with
  | new => exact ⟨C58_sorted.1, by simp [HttpHeaders.new]⟩
  | @received σ _ c s s' h hd =>
    refine ⟨headers_sorted hd, ?_⟩
    unfold HttpHeaders.deserialize at hd
    rcases h1 : crlfNext c s with ⟨item, s1⟩
    rw [h1] at hd
    dsimp only at hd
    rcases h2 : HttpHeaders.deserializeLoop c item [] s1 with ⟨q, s2⟩
    rw [h2] at hd
    cases q with
    | err e => simp at hd
    | panic => simp at hd
    | ok l =>
      simp only [Prod.mk.injEq, Res.ok.injEq] at hd
      rw [← hd.1, fromVec_entries]
      intro kv hkv
      rcases insertAll_mem hkv with hk | hk
      · obtain ⟨x, hx, rfl⟩ := List.mem_map.1 hk
        exact loop_lower h2 (by simp) x hx
      · simp at hk
  | @collected l hl =>
    refine ⟨C58_sorted.2.2.1 l, fun kv hkv => ?_⟩
    rcases insertAll_mem (show kv ∈ insertAll l [] from hkv) with hk | hk
    · exact hl kv hk
    · simp at hk
  | inserted k v _ ih =>
    refine ⟨mapInsert_sorted ih.1, fun kv hkv => ?_⟩
    rcases mapInsert_mem hkv with rfl | hk
    · exact CaseMap.lower_idem _
    · exact ih.2 kv hk

/-- Header sets compare equal exactly when they answer every lookup alike. -/
theorem C134_headers (a b : HttpHeaders) (ha : Made a) (hb : Made b) :
    a = b ↔ ∀ name, a.get name = b.get name := by
  constructor
  · rintro rfl _; rfl
  · intro h
    have hkey : ∀ x y : HttpHeaders, Made x → (∀ name, x.get name = y.get name) → ∀ k v,
        mapGet k x.entries = some v → mapGet k y.entries = some v := by
      intro x y hx hxy k v hk
      have hl := (made_normal hx).2 _ (mapGet_mem hk)
      have := hxy k
      unfold HttpHeaders.get at this
      dsimp only at hl
      rw [hl] at this
      rw [← this]; exact hk
    have he : a.entries = b.entries := by
      refine sorted_ext (made_normal ha).1 (made_normal hb).1 fun k => Option.ext fun v => ?_
      exact ⟨hkey a b ha h k v, hkey b a hb (fun n => (h n).symm) k v⟩
    cases a; cases b
    simp only at he; rw [he]

/-- The restriction on the names of collected pairs is needed: a set collected from a pair whose name is changed by
lower-casing answers every lookup like the empty set, and differs from it. -/
theorem C134_collected (k v : Bytes) (hk : CaseMap.lower k ≠ k) :
    HttpHeaders.fromIter [(k, v)] ≠ HttpHeaders.new ∧
      ∀ name, (HttpHeaders.fromIter [(k, v)]).get name = HttpHeaders.new.get name := by
  refine ⟨by simp [HttpHeaders.fromIter, HttpHeaders.new, mapInsert], fun name => ?_⟩
  have : CaseMap.lower name ≠ k := by
    intro h
    rw [← h, CaseMap.lower_idem] at hk
    exact hk rfl
  simp [HttpHeaders.get, HttpHeaders.fromIter, HttpHeaders.new, mapInsert, mapGet, this]

omit [CaseMap] in
/-- Statuses read from any texts compare equal exactly when their codes are equal. -/
theorem C134_status (s t : Bytes) (a b : HttpStatus) (ha : HttpStatus.fromStr s = .ok a)
    (hb : HttpStatus.fromStr t = .ok b) : a = b ↔ a.toCode = b.toCode := by
  have key : ∀ (u : Bytes) (x : HttpStatus), HttpStatus.fromStr u = .ok x → HttpStatus.fromCode x.toCode = x := by
    intro u x h
    unfold HttpStatus.fromStr at h
    split at h
    · simp only [Res.ok.injEq] at h
      rw [← h, C01_code_lossless]
    all_goals simp at h
  constructor
  · rintro rfl; rfl
  · intro h; rw [← key s a ha, h, key t b hb]

/-- Witness: a received set with a folded, repeated field equals one built by inserting, in another order and case. -/
example : let _ := asciiCase
    let a := (HttpHeaders.deserialize ⟨false⟩ (SliceReader.mk b!"Host: x\r\nB: 1\r\n 2\r\nHOST: y\r\n\r\n")).1
    let b := (HttpHeaders.new.insert b!"hOST" b!"y").insert b!"b" b!"1 2"
    a = .ok b ∧ Made b ∧ HttpStatus.fromStr b!"0200 fine" = .ok .OK ∧ HttpStatus.fromStr b!"200" = .ok .OK ∧
      HttpStatus.Unknown 200 ≠ .OK ∧ (HttpStatus.Unknown 200).toCode = HttpStatus.OK.toCode ∧
      CaseMap.lower b!"Host" ≠ b!"Host" := by
  intro _
  refine ⟨by decide +kernel, .inserted _ _ (.inserted _ _ .new), by decide +kernel, by decide +kernel, by decide,
    by decide, by decide +kernel⟩

end HttpIo
