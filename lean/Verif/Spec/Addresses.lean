import Verif.Spec.Opening

/-! Hosts that have more than one address. -/

namespace HttpIo.Spec

variable {ω α σ τ : Type}

/-- One of the addresses that the lookup of the URL's host and port gives accepts connections, whenever it is asked. -/
def Reachable (net : Net ω α σ τ) (u : Url) (w : ω) : Prop :=
  ∃ host port addrs w1 a, Names u host port ∧ net.lookup host port w = (.ok addrs, w1) ∧ a ∈ addrs ∧
    ∀ w2, ∃ s w3, net.connect a w2 = (.ok s, w3)

/-- The same network, but that a lookup gives one address at most. -/
def firstOnly (net : Net ω α σ τ) : Net ω α σ τ :=
  { net with
    lookup := fun host port w => match net.lookup host port w with
      | (.ok addrs, w') => (.ok (addrs.take 1), w')
      | (.error e, w') => (.error e, w') }

end HttpIo.Spec
