import Verif.Model.Features

/-! Specification vocabulary for C136. -/

namespace HttpIo.Spec

/-- Which features bring which (`Cargo.toml:18-23`, written down once more). -/
def brings : List (Feature × Feature) :=
  [(.default, .std), (.default, .sslNativeTls), (.sslOpenssl, .ssl), (.sslOpenssl, .openssl), (.sslRustls, .ssl),
    (.sslRustls, .rustls), (.sslRustls, .webpkiRoots), (.sslRustls, .rustlsPemfile), (.sslNativeTls, .ssl),
    (.sslNativeTls, .nativeTls)]

/-- A feature is on if it was asked for or if one that is on brings it. -/
inductive On (asked : List Feature) : Feature → Prop
  | asked {f : Feature} : f ∈ asked → On asked f
  | implied {f g : Feature} : On asked g → (g, f) ∈ brings → On asked f

end HttpIo.Spec
