import Verif.Model.Headers
import Verif.Spec.Headers

/-! The sorted association list behaves as a map. -/

namespace HttpIo
open Spec

theorem bytesLt_iff (a b : Bytes) : bytesLt a b = true ↔ a < b := by
  induction a generalizing b with
  | nil => cases b <;> simp [bytesLt]
  | cons x a ih =>
    cases b with
    | nil => simp [bytesLt]
    | cons y b =>
      simp only [bytesLt, Bool.or_eq_true, decide_eq_true_eq, Bool.and_eq_true, beq_iff_eq, ih,
        List.cons_lt_cons_iff]

theorem bytes_lt_trichotomy (a b : Bytes) : a < b ∨ a = b ∨ b < a := by
  induction a generalizing b with
  | nil => cases b <;> simp
  | cons x a ih =>
    cases b with
    | nil => simp
    | cons y b =>
      simp only [List.cons_lt_cons_iff, List.cons.injEq]
      rcases Nat.lt_trichotomy x.toNat y.toNat with h | h | h
      · exact .inl (.inl (UInt8.lt_iff_toNat_lt.2 h))
      · have := UInt8.toNat_inj.1 h
        rcases ih b with h' | h' | h'
        · exact .inl (.inr ⟨this, h'⟩)
        · exact .inr (.inl ⟨this, h'⟩)
        · exact .inr (.inr (.inr ⟨this.symm, h'⟩))
      · exact .inr (.inr (.inl (UInt8.lt_iff_toNat_lt.2 h)))

theorem bytes_lt_irrefl (a : Bytes) : ¬ a < a := List.lt_irrefl a
theorem bytes_lt_trans {a b d : Bytes} (h1 : a < b) (h2 : b < d) : a < d := List.lt_trans h1 h2

theorem mapGet_mapInsert (k v k2 : Bytes) (m : List (Bytes × Bytes)) :
    mapGet k2 (mapInsert k v m) = if k2 = k then some v else mapGet k2 m := by
  induction m with
  | nil => simp [mapInsert, mapGet]
  | cons kv m ih =>
    obtain ⟨k', v'⟩ := kv
    unfold mapInsert
    split
    · rename_i h; subst h
      simp only [mapGet]; split <;> rfl
    · split
      · simp [mapGet]
      · rename_i h1 h2
        simp only [mapGet, ih]
        by_cases h : k2 = k' <;> by_cases h' : k2 = k <;> simp_all

theorem mapInsert_mem {k v : Bytes} {m : List (Bytes × Bytes)} {kv : Bytes × Bytes} (h : kv ∈ mapInsert k v m) :
    kv = (k, v) ∨ kv ∈ m := by
  induction m with
  | nil => simpa [mapInsert] using h
  | cons kv' m ih =>
    obtain ⟨k', v'⟩ := kv'
    unfold mapInsert at h
    split at h
    · rename_i hk; subst hk
      simp only [List.mem_cons] at h ⊢
      rcases h with h | h
      · exact .inl h
      · exact .inr (.inr h)
    · split at h
      · simpa using h
      · simp only [List.mem_cons] at h ⊢
        rcases h with h | h
        · exact .inr (.inl h)
        · rcases ih h with h | h
          · exact .inl h
          · exact .inr (.inr h)

theorem mapInsert_sorted {k v : Bytes} {m : List (Bytes × Bytes)} (h : SortedNames m) : SortedNames (mapInsert k v m) := by
  induction m with
  | nil => simp [mapInsert, SortedNames]
  | cons kv m ih =>
    obtain ⟨k', v'⟩ := kv
    unfold SortedNames at h ih ⊢
    rw [List.pairwise_cons] at h
    unfold mapInsert
    split
    · rw [List.pairwise_cons]; exact h
    · split
      · rename_i hne hlt
        rw [bytesLt_iff] at hlt
        rw [List.pairwise_cons]
        refine ⟨?_, List.pairwise_cons.2 h⟩
        intro a ha
        simp only [List.mem_cons] at ha
        rcases ha with rfl | ha
        · exact hlt
        · exact bytes_lt_trans hlt (h.1 a ha)
      · rename_i hne hlt
        rw [bytesLt_iff] at hlt
        have hgt : k' < k := by
          rcases bytes_lt_trichotomy k k' with h | h | h
          · exact absurd h hlt
          · exact absurd h hne
          · exact h
        rw [List.pairwise_cons]
        refine ⟨?_, ih h.2⟩
        intro a ha
        rcases mapInsert_mem ha with rfl | ha
        · exact hgt
        · exact h.1 a ha

theorem mapGet_eq_none {k : Bytes} {m : List (Bytes × Bytes)} : mapGet k m = none ↔ ∀ kv ∈ m, kv.1 ≠ k := by
  induction m with
  | nil => simp [mapGet]
  | cons kv m ih =>
    obtain ⟨k', v'⟩ := kv
    simp only [mapGet, List.mem_cons, forall_eq_or_imp]
    split
    · rename_i h; simp [h]
    · rename_i h; rw [ih]; exact ⟨fun h1 => ⟨fun e => h e.symm, h1⟩, fun h1 => h1.2⟩

theorem mapGet_mem {k v : Bytes} {m : List (Bytes × Bytes)} (h : mapGet k m = some v) : (k, v) ∈ m := by
  induction m with
  | nil => simp [mapGet] at h
  | cons kv m ih =>
    obtain ⟨k', v'⟩ := kv
    simp only [mapGet] at h
    split at h
    · rename_i hk; simp at h; simp [hk, h]
    · simp [ih h]

/-- A sorted list is determined by its lookups. -/
theorem sorted_ext {a b : List (Bytes × Bytes)} (ha : SortedNames a) (hb : SortedNames b)
    (h : ∀ k, mapGet k a = mapGet k b) : a = b := by
  unfold SortedNames at ha hb
  induction a generalizing b with
  | nil =>
    cases b with
    | nil => rfl
    | cons kv b => have := h kv.1; simp [mapGet] at this
  | cons kv a ih =>
    cases b with
    | nil => have := h kv.1; simp [mapGet] at this
    | cons kv' b =>
      obtain ⟨k, v⟩ := kv
      obtain ⟨k', v'⟩ := kv'
      rw [List.pairwise_cons] at ha hb
      have hk : k = k' := by
        rcases bytes_lt_trichotomy k k' with hlt | heq | hlt
        · exfalso
          have h1 := h k
          simp only [mapGet, if_true] at h1
          have hne : k ≠ k' := fun he => by rw [he] at hlt; exact bytes_lt_irrefl _ hlt
          rw [if_neg hne] at h1
          have := mapGet_mem h1.symm
          exact bytes_lt_irrefl k (bytes_lt_trans hlt (hb.1 _ this))
        · exact heq
        · exfalso
          have h1 := h k'
          simp only [mapGet, if_true] at h1
          have hne : k' ≠ k := fun he => by rw [he] at hlt; exact bytes_lt_irrefl _ hlt
          rw [if_neg hne] at h1
          have := mapGet_mem h1
          exact bytes_lt_irrefl k' (bytes_lt_trans hlt (ha.1 _ this))
      subst hk
      have hv : v = v' := by have := h k; simpa [mapGet] using this
      subst hv
      rw [ih ha.2 hb.2]
      intro k2
      have := h k2
      simp only [mapGet] at this
      by_cases hk2 : k2 = k
      · subst hk2
        have e1 : mapGet k2 a = none := by
          rw [mapGet_eq_none]; intro kv hkv he
          have := ha.1 kv hkv; rw [he] at this; exact bytes_lt_irrefl _ this
        have e2 : mapGet k2 b = none := by
          rw [mapGet_eq_none]; intro kv hkv he
          have := hb.1 kv hkv; rw [he] at this; exact bytes_lt_irrefl _ this
        rw [e1, e2]
      · simpa [hk2] using this

/-- Inserting the pairs of a history one after the other. -/
def insertAll (hist : List (Bytes × Bytes)) (m : List (Bytes × Bytes)) : List (Bytes × Bytes) :=
  hist.foldl (fun m kv => mapInsert kv.1 kv.2 m) m

theorem insertAll_sorted {hist m : List (Bytes × Bytes)} (h : SortedNames m) : SortedNames (insertAll hist m) := by
  unfold insertAll
  induction hist generalizing m with
  | nil => exact h
  | cons kv hist ih => exact ih (mapInsert_sorted h)

theorem insertAll_snoc (hist m : List (Bytes × Bytes)) (k v : Bytes) :
    insertAll (hist ++ [(k, v)]) m = mapInsert k v (insertAll hist m) := by
  unfold insertAll; simp

theorem lastWith_snoc {p : Bytes → Prop} {hist : List (Bytes × Bytes)} {k v v' : Bytes} :
    LastWith p (hist ++ [(k, v')]) v ↔ (p k ∧ v = v') ∨ (¬ p k ∧ LastWith p hist v) := by
  constructor
  · rintro ⟨pre, k1, post, h, hp, hpost⟩
    rcases List.eq_nil_or_concat post with rfl | ⟨post', x, rfl⟩
    · have := List.append_inj' h (by simp)
      simp at this
      rw [this.2.1]; exact .inl ⟨hp, this.2.2.symm⟩
    · right
      rw [List.concat_eq_append] at h hpost
      rw [show pre ++ (k1, v) :: (post' ++ [x]) = (pre ++ (k1, v) :: post') ++ [x] by simp] at h
      have := List.append_inj' h (by simp)
      simp at this
      refine ⟨?_, pre, k1, post', this.1, hp, fun kv hkv => hpost kv (by simp [hkv])⟩
      have h2 := hpost x (by simp)
      rw [← this.2] at h2; exact h2
  · rintro (⟨hp, rfl⟩ | ⟨hp, pre, k1, post, rfl, h1, h2⟩)
    · exact ⟨hist, k, [], by simp, hp, by simp⟩
    · refine ⟨pre, k1, post ++ [(k, v')], by simp, h1, ?_⟩
      intro kv hkv
      simp only [List.mem_append, List.mem_singleton] at hkv
      rcases hkv with hkv | rfl
      · exact h2 kv hkv
      · exact hp

/-- Lookup after a history of insertions. -/
theorem mapGet_insertAll (hist : List (Bytes × Bytes)) (k v : Bytes) :
    mapGet k (insertAll hist []) = some v ↔ LastWith (fun k' => k' = k) hist v := by
  suffices ∀ rev : List (Bytes × Bytes), mapGet k (insertAll rev.reverse []) = some v ↔
      LastWith (fun k' => k' = k) rev.reverse v by
    have := this hist.reverse; simpa using this
  intro rev
  induction rev with
  | nil => simp [insertAll, mapGet, LastWith]
  | cons kv rev ih =>
    obtain ⟨k', v'⟩ := kv
    rw [List.reverse_cons, insertAll_snoc, mapGet_mapInsert, lastWith_snoc]
    by_cases h : k = k'
    · subst h; simp [eq_comm]
    · have h' : ¬ k' = k := fun e => h e.symm
      simp [h, h', ih]

theorem not_lastWith {p : Bytes → Prop} {hist : List (Bytes × Bytes)} :
    (¬ ∃ v, LastWith p hist v) ↔ ∀ kv ∈ hist, ¬ p kv.1 := by
  suffices ∀ rev : List (Bytes × Bytes), (¬ ∃ v, LastWith p rev.reverse v) ↔ ∀ kv ∈ rev.reverse, ¬ p kv.1 by
    have := this hist.reverse; simpa using this
  intro rev
  induction rev with
  | nil => simp [LastWith]
  | cons kv rev ih =>
    obtain ⟨k', v'⟩ := kv
    rw [List.reverse_cons]
    constructor
    · intro h kv hkv
      by_cases hp : p k'
      · exact absurd ⟨v', lastWith_snoc.2 (.inl ⟨hp, rfl⟩)⟩ h
      · have h' : ¬ ∃ v, LastWith p rev.reverse v := fun ⟨v, hv⟩ => h ⟨v, lastWith_snoc.2 (.inr ⟨hp, hv⟩)⟩
        simp only [List.mem_append, List.mem_singleton] at hkv
        rcases hkv with hkv | rfl
        · exact ih.1 h' kv hkv
        · exact hp
    · rintro h ⟨v, hv⟩
      rcases lastWith_snoc.1 hv with ⟨hp, _⟩ | ⟨_, hv⟩
      · exact h (k', v') (by simp) hp
      · exact ih.2 (fun kv hkv => h kv (by simp [hkv])) ⟨v, hv⟩

theorem mapGet_insertAll_none (hist : List (Bytes × Bytes)) (k : Bytes) :
    mapGet k (insertAll hist []) = none ↔ ∀ kv ∈ hist, kv.1 ≠ k := by
  have h := not_lastWith (p := fun k' => k' = k) (hist := hist)
  rw [← h]
  constructor
  · rintro hn ⟨v, hv⟩
    rw [← mapGet_insertAll, hn] at hv; simp at hv
  · intro hn
    cases hg : mapGet k (insertAll hist []) with
    | none => rfl
    | some v => exact absurd ⟨v, (mapGet_insertAll hist k v).1 hg⟩ hn

/-- Inserting the entries of a sorted list in order rebuilds it. -/
theorem insertAll_self {m : List (Bytes × Bytes)} (h : SortedNames m) : insertAll m [] = m := by
  apply sorted_ext (insertAll_sorted (by simp [SortedNames])) h
  intro k
  cases hg : mapGet k m with
  | none =>
    rw [mapGet_insertAll_none]; exact mapGet_eq_none.1 hg
  | some v =>
    rw [mapGet_insertAll]
    obtain ⟨pre, post, hpp⟩ := List.append_of_mem (mapGet_mem hg)
    refine ⟨pre, k, post, hpp, rfl, ?_⟩
    intro kv hkv he
    rw [hpp] at h
    unfold SortedNames at h
    rw [List.pairwise_append, List.pairwise_cons] at h
    have := h.2.1.1 kv hkv
    rw [he] at this
    exact bytes_lt_irrefl _ this

end HttpIo
