import Verif.Spec.Opening

/-! URLs whose host is an IP address. -/

namespace HttpIo.Spec

variable {ω α σ τ : Type}

/-- A lookup as `std` has it: the text of an IPv4 or IPv6 address is that address, and a text in square brackets is
neither an address nor a name. (`(&str, u16)::to_socket_addrs` parses its host as `Ipv4Addr` and `Ipv6Addr`, which take
no brackets, and asks the resolver for the rest.) -/
structure NumericLookup (net : Net ω α σ τ) (V4 V6 : Bytes → Prop) (addr : Bytes → Nat → α) : Prop where
  literal : ∀ t p w, V4 t ∨ V6 t → net.lookup t p w = (.ok [addr t p], w)
  brackets : ∀ t p w, ∃ e, net.lookup ([91] ++ t ++ [93]) p w = (.error e, w)

/-- The host of the URL is the IP address with text `t`: RFC 3986 section 3.2.2 puts IPv6 addresses in square brackets
(and so does `url::Url::host_str`). -/
def IpHost (V4 V6 : Bytes → Prop) (u : Url) (t : Bytes) : Prop :=
  (V4 t ∧ u.host = some t) ∨ (V6 t ∧ u.host = some ([91] ++ t ++ [93]))

end HttpIo.Spec
