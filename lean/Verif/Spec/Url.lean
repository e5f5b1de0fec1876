import Verif.Model.Url
import Verif.Spec.Codes
import Verif.Spec.Text

/-! Specification vocabulary for URLs. -/

namespace HttpIo.Spec

/-- The scheme is `http` up to case. -/
def PlainHttp (u : Url) : Prop := SameText u.scheme (utf8 "http")

/-- The scheme is `https` up to case. -/
def SecureHttp (u : Url) : Prop := SameText u.scheme (utf8 "https")

/-- The scheme is ASCII without capital letters (the `url` crate normalizes it so). -/
def LowerScheme (u : Url) : Prop := ∀ b ∈ u.scheme, b.toNat < 128 ∧ ¬ (65 ≤ b.toNat ∧ b.toNat ≤ 90)

/-- The default port of the scheme. -/
def DefaultPort (u : Url) (p : Nat) : Prop := (PlainHttp u ∧ p = 80) ∨ (SecureHttp u ∧ p = 443)

/-- RFC 2616 section 14.23: host, and the port if it is not the default one. -/
inductive HostPort (u : Url) : Bytes → Prop
  | plain {h : Bytes} : u.host = some h → (∀ p, u.port = some p → DefaultPort u p) → HostPort u h
  | port {h ds : Bytes} {p : Nat} : u.host = some h → u.port = some p → ¬ DefaultPort u p → Numeral 10 ds p →
      HostPort u (h ++ [58] ++ ds)

/-- RFC 2616 section 5.1.2: the path (`/` if empty) and, if there is a query, `?` and the query. -/
def requestTarget (u : Url) : Bytes :=
  (if u.path = [] then [47] else u.path) ++ (match u.query with | none => [] | some q => 63 :: q)

/-- The headers a new request carries. -/
def standardHeaders (m : HttpMethod) (host : Bytes) : List (Bytes × Bytes) :=
  if m = .Delete ∨ m = .Post ∨ m = .Put then
    [(b!"accept", b!"*/*"), (b!"host", host), (b!"transfer-encoding", b!"chunked"), (b!"user-agent", b!"http_io")]
  else [(b!"accept", b!"*/*"), (b!"host", host), (b!"user-agent", b!"http_io")]

end HttpIo.Spec
