import Verif.Spec.Client

/-! Specification vocabulary for what requests to one server have to do with requests to others. -/

namespace HttpIo.Spec

/-- What there is to know about address `a` in the world is `view a`: the outcome of connecting to it depends on nothing else, and
connecting to another address does not change it. Lookups depend on the URL alone and change nothing that matters. -/
structure Separate {ω α σ κ : Type} (N : StreamConnector ω α σ) (view : α → ω → κ) : Prop where
  lookup : ∀ url w w', (N.toStreamAddr url w).1 = (N.toStreamAddr url w').1
  lookup_view : ∀ a url w, view a (N.toStreamAddr url w).2 = view a w
  connect : ∀ a w w', view a w = view a w' →
    (N.connect a w).1 = (N.connect a w').1 ∧ view a (N.connect a w).2 = view a (N.connect a w').2
  connect_view : ∀ a b w, b ≠ a → view b (N.connect a w).2 = view b w

/-- The connection of an address, if there is one. -/
def connectionTo {α σ : Type} [DecidableEq α] (a : α) (cl : HttpClient α σ) : Option σ :=
  (cl.streams.find? fun x => x.1 = a).map (·.2)

/-- The request goes to address `a`, as the network looks it up. -/
def Exchange.goesTo {c : Cfg} {ω α σ β : Type} [DecidableEq α] (N : StreamConnector ω α σ) (w : ω) (a : α) (x : Exchange c σ β) : Bool :=
  match x.url with
  | none => false
  | some u =>
    match (N.toStreamAddr u w).1 with
    | .ok b => b = a
    | _ => false

end HttpIo.Spec
