import Verif.Props.Body

/-! C07, at the place where the crate uses the size parser: the size line of a chunk. -/

namespace HttpIo
open Spec

variable {ρ : Type} [LawfulReader ρ] [ZeroReader ρ]

/-- A size line begins a chunk of that many bytes, ends the body, or is an error: the first exactly for a numeral for
a positive number below 2^64, the second exactly for a numeral for zero. -/
theorem C07_size_line (c : Cfg) (s : ρ) (l : Bytes) (rest : List Ev) (hl : RawLine l)
    (hd : Delivers c (trace s) (l ++ [13, 10]) rest) :
    (∀ n, (∃ u s', HttpBodyChunk.new c s = (.ok (some ⟨u, n⟩), s') ∧ trace u = rest) ↔
      UnsignedText 16 l n ∧ 0 < n ∧ n < 2 ^ 64) ∧
    ((∃ s', HttpBodyChunk.new c s = (.ok none, s') ∧ trace s' = rest) ↔ UnsignedText 16 l 0) ∧
    ((∃ s', HttpBodyChunk.new c s = (.error .parseInt, s')) ↔ ∀ n, UnsignedText 16 l n → 2 ^ 64 ≤ n) := by
  obtain ⟨s1, h1, h2⟩ := expectNext_line hl hd
  have key := fun n => fromStrRadix_iff (r := 16) (max := u64Max) (n := n) (t := l) (by omega) (by omega)
  have hm : ∀ n, n ≤ u64Max ↔ n < 2 ^ 64 := fun n => by unfold u64Max; omega
  unfold HttpBodyChunk.new
  rw [h1]
  dsimp only
  cases hf : fromStrRadix 16 u64Max l with
  | none =>
    have no : ∀ n, UnsignedText 16 l n → 2 ^ 64 ≤ n := fun n hn => by
      have := mt (key n).2 (by rw [hf]; simp)
      rw [hm] at this
      exact Nat.le_of_not_lt fun h => this ⟨hn, h⟩
    simp only [Prod.mk.injEq, reduceCtorEq, false_and, exists_false, false_iff, true_and, exists_eq', true_iff]
    exact ⟨fun n ⟨a, _, b⟩ => absurd (no n a) (by omega), fun a => absurd (no 0 a) (by omega), no⟩
  | some size =>
    obtain ⟨g1, g2⟩ := (key size).1 hf
    rw [hm] at g2
    have uniq : ∀ n, UnsignedText 16 l n → n < 2 ^ 64 → n = size := fun n a b => by
      have := (key n).2 ⟨a, (hm n).2 b⟩
      rw [hf] at this; simpa using this.symm
    dsimp only
    by_cases h0 : size = 0
    · subst h0
      refine ⟨fun n => ?_, ?_, ?_⟩
      · simp only [if_true, Prod.mk.injEq, Except.ok.injEq, reduceCtorEq, false_and, exists_false, false_iff]
        rintro ⟨a, b, d⟩
        have := uniq n a d
        omega
      · simp only [if_true, Prod.mk.injEq, true_and]
        exact ⟨fun _ => g1, fun _ => ⟨s1, rfl, h2⟩⟩
      · simp only [if_true, Prod.mk.injEq, reduceCtorEq, false_and, exists_false, false_iff]
        exact fun h => absurd (h 0 g1) (by omega)
    · refine ⟨fun n => ?_, ?_, ?_⟩
      · rw [if_neg h0]
        constructor
        · rintro ⟨u, s', a, b⟩
          simp only [Prod.mk.injEq, Except.ok.injEq, Option.some.injEq, Take.mk.injEq] at a
          obtain ⟨⟨rfl, rfl⟩, rfl⟩ := a
          exact ⟨g1, by omega, g2⟩
        · rintro ⟨a, b, d⟩
          rw [uniq n a d]
          exact ⟨s1, s1, rfl, h2⟩
      · rw [if_neg h0]
        simp only [Prod.mk.injEq, Except.ok.injEq, reduceCtorEq, false_and, exists_false, false_iff]
        exact fun a => h0 (uniq 0 a (by omega)).symm
      · rw [if_neg h0]
        simp only [Prod.mk.injEq, reduceCtorEq, false_and, exists_false, false_iff]
        exact fun h => absurd (h size g1) (by omega)

/-- Every size the crate writes in front of a chunk is read back. -/
theorem C07_size_roundtrip (c : Cfg) (s : ρ) (n : Nat) (h0 : 0 < n) (hn : n < 2 ^ 64) (rest : List Ev)
    (hd : Delivers c (trace s) (showHex n ++ [13, 10]) rest) :
    ∃ u s', HttpBodyChunk.new c s = (.ok (some ⟨u, n⟩), s') ∧ trace u = rest :=
  ((C07_size_line c s _ rest (unsignedText_rawLine (.inl (numeral_showHex n))) hd).1 n).2
    ⟨.inl (numeral_showHex n), h0, hn⟩

/-- Witnesses: the size line of the largest chunk, in two pieces, and one that is too large. -/
example :
    let s := Wire.mk [.data b!"+00fFff", .data b!"ffffffffffff\r", .data b!"\nx"]
    let s' := Wire.mk [.data b!"10000000000000000\r\n"]
    RawLine b!"+00fFffffffffffffff" ∧
      Delivers ⟨true⟩ (trace s) (b!"+00fFffffffffffffff" ++ [13, 10]) [.byte 120] ∧
      UnsignedText 16 b!"+00fFffffffffffffff" (2 ^ 64 - 1) ∧
      RawLine b!"10000000000000000" ∧ Delivers ⟨true⟩ (trace s') (b!"10000000000000000" ++ [13, 10]) [] ∧
      (match (HttpBodyChunk.new ⟨true⟩ s').1 with | .error e => decide (e = .parseInt) | _ => false) = true ∧ showHex 255 = b!"ff" := by
  refine ⟨⟨by decide, by unfold HasCrLf; decide, isText_ascii (by decide)⟩, delivers_map _ b!"+00fFffffffffffffff\r\n" [.byte 120],
    ((fromStrRadix_iff (max := 2 ^ 64) (by omega) (by omega)).1 (by decide +kernel)).1,
    ⟨by decide, by unfold HasCrLf; decide, isText_ascii (by decide)⟩, ?_, by decide +kernel, by decide +kernel⟩
  exact delivers_map _ b!"10000000000000000\r\n" []

end HttpIo
