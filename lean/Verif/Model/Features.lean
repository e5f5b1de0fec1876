import Verif.Model.Base

/-!
The Cargo features (`Cargo.toml:17-33`) and what they compile: which TLS back end the module `ssl` has.
-/

namespace HttpIo

/-- The features of `Cargo.toml:17-23`, and those that Cargo makes of the optional dependencies (`:27-31`). -/
inductive Feature where
  | default | std | ssl | sslOpenssl | sslRustls | sslNativeTls
  | openssl | rustls | webpkiRoots | rustlsPemfile | nativeTls
deriving DecidableEq, Repr

/-- The right-hand sides of `Cargo.toml:18-23`. -/
def Feature.implies : Feature → List Feature
  | .default => [.std, .sslNativeTls]
  | .sslOpenssl => [.ssl, .openssl]
  | .sslRustls => [.ssl, .rustls, .webpkiRoots, .rustlsPemfile]
  | .sslNativeTls => [.ssl, .nativeTls]
  | _ => []

/-- The features Cargo enables when these are asked for: two rounds of `implies` reach them all. Features that several
dependents ask for are united. -/
def enabled (asked : List Feature) : List Feature :=
  let once := asked ++ asked.flatMap Feature.implies
  once ++ once.flatMap Feature.implies

/-- The files that can be the module `ssl::inner` (`src/ssl/mod.rs:9-19`). -/
inductive Backend where
  | openssl | rustls | nativeTls
deriving DecidableEq, Repr

/-- Why the compiler refuses: two modules of one name; `pub use inner::*` with no such module; `std::…` in a crate that
is `no_std`; a crate that is not a dependency. -/
inductive BuildError where
  | twoInner | noInner | noStd | noCrate
deriving DecidableEq, Repr

/-- The modules `inner` that are there (`src/ssl/mod.rs:9-19`). -/
def innerModules (on : List Feature) : List Backend :=
  (if .openssl ∈ on then [.openssl] else []) ++ (if .rustls ∈ on then [.rustls] else []) ++
    (if .nativeTls ∈ on then [.nativeTls] else [])

/-- Whether the names in the crate that depend on features are defined (once): `src/lib.rs:6`, `:18-25` and
`src/ssl/mod.rs`. The result is the TLS back end, if there is any. `ssl` names `std` (`src/ssl/mod.rs:7`);
`src/ssl/rustls.rs` names two more crates (`:21`, `:29`, `:135`). Simplification: everything else is taken to compile. -/
def buildWith (asked : List Feature) : Except BuildError (Option Backend) :=
  let on := enabled asked
  if .ssl ∈ on then
    if .std ∉ on then .error .noStd
    else match innerModules on with
      | [] => .error .noInner
      | [.rustls] => if .webpkiRoots ∈ on ∧ .rustlsPemfile ∈ on then .ok (some .rustls) else .error .noCrate
      | [b] => .ok (some b)
      | _ => .error .twoInner
  else .ok none

/-- Whether `StreamConnector::connect` does handshakes: `#[cfg(feature = "ssl")]` and `#[cfg(not(feature = "ssl"))]`
(`src/client.rs:211-226`). -/
def sslOn (asked : List Feature) : Bool := .ssl ∈ enabled asked

end HttpIo
