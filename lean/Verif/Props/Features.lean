import Verif.Spec.Features

/-! C136: which choices of Cargo features build. -/

namespace HttpIo
open Spec

theorem brings_iff : ∀ g f : Feature, (g, f) ∈ brings ↔ f ∈ g.implies := by
  intro g f
  cases g <;> cases f <;> decide

theorem implies_twice (a b d e : Feature) (h1 : b ∈ a.implies) (h2 : d ∈ b.implies) (h3 : e ∈ d.implies) : False := by
  cases a <;> cases b <;> first | (simp [Feature.implies] at h1; done) | skip
  all_goals cases d <;> first | (simp [Feature.implies] at h2; done) | skip
  all_goals simp [Feature.implies] at h3

theorem mem_enabled (asked : List Feature) (f : Feature) : f ∈ enabled asked ↔ On asked f := by
  have e : f ∈ enabled asked ↔ f ∈ asked ∨ (∃ a ∈ asked, f ∈ a.implies) ∨
      (∃ a ∈ asked, ∃ b ∈ a.implies, f ∈ b.implies) := by
    simp only [enabled, List.mem_append, List.mem_flatMap]
    constructor
    · rintro ((h | h) | ⟨a, h | ⟨b, hb, hab⟩, hf⟩)
      · exact .inl h
      · exact .inr (.inl h)
      · exact .inr (.inl ⟨a, h, hf⟩)
      · exact .inr (.inr ⟨b, hb, a, hab, hf⟩)
    · rintro (h | h | ⟨a, ha, b, hb, hf⟩)
      · exact .inl (.inl h)
      · exact .inl (.inr h)
      · exact .inr ⟨b, .inr ⟨a, ha, hb⟩, hf⟩
  rw [e]; clear e
  constructor
  · rintro (h | ⟨a, ha, hf⟩ | ⟨a, ha, b, hb, hf⟩)
    · exact .asked h
    · exact .implied (.asked ha) ((brings_iff _ _).2 hf)
    · exact .implied (.implied (.asked ha) ((brings_iff _ _).2 hb)) ((brings_iff _ _).2 hf)
  · intro h
    induction h with
    | asked h => exact .inl h
    | implied _ hf ih =>
      rw [brings_iff] at hf
      rcases ih with h | ⟨a, ha, hg⟩ | ⟨a, ha, b, hb, hg⟩
      · exact .inr (.inl ⟨_, h, hf⟩)
      · exact .inr (.inr ⟨a, ha, _, hg, hf⟩)
      · exact absurd hf fun hf => implies_twice _ _ _ _ hb hg hf

/-- Exactly the choices that build, and the back end they get: without `ssl`, any; with `ssl` (directly or through
another feature), those with `std` and exactly one of the three back ends, and for rustls its two other crates. -/
theorem C136_builds (asked : List Feature) (b : Option Backend) :
    buildWith asked = .ok b ↔
      (¬ On asked .ssl ∧ b = none) ∨
      (On asked .ssl ∧ On asked .std ∧
        ((b = some .openssl ∧ On asked .openssl ∧ ¬ On asked .rustls ∧ ¬ On asked .nativeTls) ∨
         (b = some .nativeTls ∧ On asked .nativeTls ∧ ¬ On asked .rustls ∧ ¬ On asked .openssl) ∨
         (b = some .rustls ∧ On asked .rustls ∧ ¬ On asked .nativeTls ∧ ¬ On asked .openssl ∧
          On asked .webpkiRoots ∧ On asked .rustlsPemfile))) := by
  simp only [← mem_enabled]
  unfold buildWith innerModules
  by_cases h1 : Feature.ssl ∈ enabled asked <;> by_cases h2 : Feature.std ∈ enabled asked <;>
    by_cases h3 : Feature.openssl ∈ enabled asked <;> by_cases h4 : Feature.rustls ∈ enabled asked <;>
    by_cases h5 : Feature.nativeTls ∈ enabled asked <;> by_cases h6 : Feature.webpkiRoots ∈ enabled asked <;>
    by_cases h7 : Feature.rustlsPemfile ∈ enabled asked <;> simp [h1, h2, h3, h4, h5, h6, h7, eq_comm]

/-- False that every choice builds, and that asking for more never breaks a build (Cargo unites what all dependents of a
crate ask for): with the default features on, another back end cannot be added. -/
theorem C136_additive_false :
    buildWith [.default] = .ok (some .nativeTls) ∧ buildWith [.std, .sslRustls] = .ok (some .rustls) ∧
    buildWith ([.default] ++ [.std, .sslRustls]) = .error .twoInner ∧
    buildWith ([.default] ++ [.sslOpenssl]) = .error .twoInner ∧
    buildWith [.std, .ssl] = .error .noInner ∧ buildWith [.sslRustls] = .error .noStd ∧
    buildWith [.std, .ssl, .rustls] = .error .noCrate := by decide

/-- What does hold of adding features: a build with TLS and one more back end never builds; a build without TLS still
builds with everything but `ssl`; and what builds with a TLS back end still builds, with the same one, when features
are added that bring no back end. -/
theorem C136_added_partial (asked more : List Feature) (b : Option Backend) (h : buildWith asked = .ok b)
    (h1 : ¬ On (asked ++ more) .ssl ∨ On asked .ssl)
    (h2 : ∀ f ∈ more, f ≠ .openssl ∧ f ≠ .rustls ∧ f ≠ .nativeTls ∧ f ≠ .sslOpenssl ∧ f ≠ .sslRustls ∧ f ≠ .sslNativeTls ∧
      f ≠ .default) :
    buildWith (asked ++ more) = .ok b := by
  have mono : ∀ f, On asked f → On (asked ++ more) f := by
    intro f hf
    induction hf with
    | asked h => exact .asked (List.mem_append_left _ h)
    | implied _ hf ih => exact .implied ih hf
  have back : ∀ f, On (asked ++ more) f → On asked f ∨ f ∈ more := by
    intro f hf
    induction hf with
    | asked h => exact (List.mem_append.1 h).imp .asked id
    | @implied f g _ hf ih =>
      rcases ih with h | h
      · exact .inl (.implied h hf)
      · have := h2 g h
        rw [brings_iff] at hf
        cases g <;> simp_all [Feature.implies]
  rw [C136_builds] at h ⊢
  have n1 : ¬ On asked .openssl → ¬ On (asked ++ more) .openssl := fun hn h => (back _ h).elim hn fun h => (h2 _ h).1 rfl
  have n2 : ¬ On asked .rustls → ¬ On (asked ++ more) .rustls := fun hn h => (back _ h).elim hn fun h => (h2 _ h).2.1 rfl
  have n3 : ¬ On asked .nativeTls → ¬ On (asked ++ more) .nativeTls :=
    fun hn h => (back _ h).elim hn fun h => (h2 _ h).2.2.1 rfl
  rcases h with ⟨hs, rfl⟩ | ⟨hs, hstd, h⟩
  · exact .inl ⟨h1.resolve_right hs, rfl⟩
  · refine .inr ⟨mono _ hs, mono _ hstd, ?_⟩
    rcases h with ⟨hb, ho, hr, hn⟩ | ⟨hb, hn, hr, ho⟩ | ⟨hb, hr, hn, ho, hw, hp⟩
    · exact .inl ⟨hb, mono _ ho, n2 hr, n3 hn⟩
    · exact .inr (.inl ⟨hb, mono _ hn, n2 hr, n1 ho⟩)
    · exact .inr (.inr ⟨hb, mono _ hr, n3 hn, n1 ho, mono _ hw, mono _ hp⟩)

/-- Witness: the builds of `prepush`; and a build to which a feature can be added. -/
example : buildWith [.default] = .ok (some .nativeTls) ∧ buildWith [] = .ok none ∧
    buildWith [.std, .sslOpenssl] = .ok (some .openssl) ∧ buildWith [.std, .sslRustls] = .ok (some .rustls) ∧
    buildWith ([.std, .sslOpenssl] ++ [.webpkiRoots]) = .ok (some .openssl) := by decide

end HttpIo
