import Verif.Spec.Addresses
import Verif.Props.Opening

/-! C142, C143: hosts that have more than one address, or not always the same. -/

namespace HttpIo
open Spec

section
variable [CaseMap] {ω α σ τ : Type}

theorem firstOnly_connector (net : Net ω α σ τ) (ssl : Bool) : (firstOnly net).connector ssl = net.connector ssl := by
  unfold Net.connector
  congr 1
  funext u w
  unfold Net.toStreamAddr
  cases HttpUrl.tryFrom u with
  | err e => rfl
  | panic => rfl
  | ok v =>
    dsimp only
    cases v.portOf with
    | err e => rfl
    | panic => rfl
    | ok port =>
      dsimp only [firstOnly]
      rcases net.lookup v.host port w with ⟨e | _ | ⟨a, as⟩, w1⟩ <;> rfl

section
variable {c : Cfg} [DecidableEq α] [LawfulReader σ] [LawfulReader τ] [LawfulWriter σ] [LawfulWriter τ] {ρ β : Type} [LawfulReader ρ]

/-! ### C142 -/

/-- Only the first address that a lookup gives matters: whatever is done, and however often, it comes out as if lookups gave no
other. -/
theorem C142_others_unused (net : Net ω α σ τ) (ssl : Bool) (url : Option Url) (body : ρ) (w : ω)
    (xs : List (Exchange c (StreamEither σ τ) β)) (cl : HttpClient (StreamId α) (StreamEither σ τ)) :
    clientGet c (net.connector ssl) url w = clientGet c ((firstOnly net).connector ssl) url w ∧
    clientPut c (net.connector ssl) url body w = clientPut c ((firstOnly net).connector ssl) url body w ∧
    history (net.connector ssl) xs cl w = history ((firstOnly net).connector ssl) xs cl w := by
  rw [firstOnly_connector]; exact ⟨rfl, rfl, rfl⟩

omit [DecidableEq α] in
theorem sendRequest_log (net : Net ω α σ τ) (ssl : Bool) (u : Url) (hl : LowerScheme u) (hs : PlainHttp u ∨ SecureHttp u)
    (host : Bytes) (port : Nat) (hn : Names u host port) (w w1 : ω) (a : α) (rest : List α)
    (hk : net.lookup host port w = (.ok (a :: rest), w1)) (b : HttpRequestBuilder c) (body : ρ) :
    (∃ a', .inl a' ∈ (sendRequest c ((watched net).connector ssl) b u body (w, [])).2.2) ↔
      ∃ s w2, net.connect a w1 = (.ok s, w2) := by
  have ha : AsciiText u.scheme := fun b hb => (hl b hb).1
  obtain ⟨port', sec, h1, _, h3⟩ := toStreamAddr_eq (watched net) hl hs hn.1 (w, [])
  obtain ⟨_, rfl⟩ := names_unique ha hn h1
  have hk' : (watched net).lookup host port (w, []) = (.ok (a :: rest), w1, []) := by
    show ((net.lookup host port w).1, (net.lookup host port w).2, ([] : List (α ⊕ Bytes))) = _
    rw [hk]
  rw [hk'] at h3
  dsimp only at h3
  have same : ∀ (id : StreamId α) (v v' : ω × List (α ⊕ Bytes)) st, (watched net).streamConnect ssl id v = (.ok st, v') →
      (watched net).toStreamAddr u (w, []) = (.ok id, v) → (sendRequest c ((watched net).connector ssl) b u body (w, [])).2 = v' := by
    intro id v v' st hv hid
    unfold sendRequest Net.connector
    dsimp only
    rw [hid]; dsimp only
    rw [hv]; dsimp only
    split
    · rfl
    · split
      · rfl
      · split
        · rfl
        · rfl
        · split <;> rfl
  rcases hc : net.connect a w1 with ⟨e | s, w2⟩
  · have : (sendRequest c ((watched net).connector ssl) b u body (w, [])).2 = (w2, []) := by
      unfold sendRequest Net.connector
      dsimp only
      rw [h3]; dsimp only
      unfold Net.streamConnect watched
      dsimp only
      rw [hc]
    rw [this]; simp
  · have hc' : (watched net).connect a (w1, []) = (.ok s, w2, [.inl a]) := by unfold watched; dsimp only; rw [hc]; rfl
    refine iff_of_true ⟨a, ?_⟩ ⟨s, w2, rfl⟩
    rcases hst : (watched net).streamConnect ssl ⟨a, host, sec⟩ (w1, []) with ⟨r, v⟩
    have hv : .inl a ∈ v.2 := by
      unfold Net.streamConnect at hst
      dsimp only at hst
      rw [hc'] at hst
      dsimp only at hst
      split at hst
      · split at hst
        · have hin : .inl a ∈ ((watched net).tls host s (w2, [.inl a])).2.2 := by
            unfold watched
            dsimp only
            rcases net.tls host s w2 with ⟨t | e | _, w3⟩ <;> simp
          rcases ht : (watched net).tls host s (w2, [.inl a]) with ⟨t | e | _, w3⟩ <;> rw [ht] at hst hin <;>
            simp only [Prod.mk.injEq] at hst <;> rw [← hst.2] <;> exact hin
        · simp only [Prod.mk.injEq] at hst; rw [← hst.2]; simp
      · simp only [Prod.mk.injEq] at hst; rw [← hst.2]; simp
    cases r with
    | ok st => rw [same _ _ _ st hst h3]; exact hv
    | err e =>
      have : (sendRequest c ((watched net).connector ssl) b u body (w, [])).2 = v := by
        unfold sendRequest Net.connector
        dsimp only
        rw [h3]; dsimp only
        rw [hst]
      rw [this]; exact hv
    | panic =>
      have : (sendRequest c ((watched net).connector ssl) b u body (w, [])).2 = v := by
        unfold sendRequest Net.connector
        dsimp only
        rw [h3]; dsimp only
        rw [hst]
      rw [this]; exact hv

/-- Full statement: `client::get` and `client::put` open a connection if one of the addresses of the URL's host accepts it. What
holds: they do exactly if the first address does; if it does not, that is the error they return, and nothing happens after it.
Missing: the other addresses, see `C142_any_address_false`. -/
theorem C142_first_partial (net : Net ω α σ τ) (ssl : Bool) (u : Url) (hl : LowerScheme u) (hs : PlainHttp u ∨ SecureHttp u)
    (host : Bytes) (port : Nat) (hn : Names u host port) (w w1 : ω) (a : α) (rest : List α)
    (hk : net.lookup host port w = (.ok (a :: rest), w1)) (body : ρ) :
    ((∃ a', .inl a' ∈ (clientGet c ((watched net).connector ssl) (some u) (w, [])).2.2) ↔ ∃ s w2, net.connect a w1 = (.ok s, w2)) ∧
    ((∃ a', .inl a' ∈ (clientPut c ((watched net).connector ssl) (some u) body (w, [])).2.2) ↔ ∃ s w2, net.connect a w1 = (.ok s, w2)) ∧
    ∀ e w2, net.connect a w1 = (.error e, w2) → clientGet c (net.connector ssl) (some u) w = (.err e, w2) ∧
      clientPut c (net.connector ssl) (some u) body w = (.err e, w2) := by
  have ha : AsciiText u.scheme := fun b hb => (hl b hb).1
  have hb : ∀ m, ∃ b, HttpRequestBuilder.new c (HttpUrl.tryFrom u) m = .ok b := fun m =>
    (C40_builder c u m ha).1.2 ⟨hs, ⟨host, hn.1⟩⟩
  refine ⟨?_, ?_, fun e w2 hc => ?_⟩
  · obtain ⟨b, hb⟩ := hb .Get
    unfold clientGet HttpRequestBuilder.get
    dsimp only
    rw [hb]
    exact sendRequest_log net ssl u hl hs host port hn w w1 a rest hk b _
  · obtain ⟨b, hb⟩ := hb .Put
    unfold clientPut HttpRequestBuilder.put
    dsimp only
    rw [hb]
    exact sendRequest_log net ssl u hl hs host port hn w w1 a rest hk b _
  · have := C80_reported (c := c) net ssl u hl hs body w w2 e (.connect hn hk hc)
    exact ⟨this.1, this.2.1⟩

/-! ### C143 -/

/-- Full statement: if a client has a connection open for a URL's host, port and security, a further request for the URL goes over
it. What holds: exactly if the lookup, which is made all the same, gives again the address of that connection first. If it gives
another address first the connection is not used, and if it fails so does the request. Missing: `C143_lookup_false`,
`C143_rotating_false`. -/
theorem C143_pooled_partial (net : Net ω α σ τ) (ssl : Bool) (x : Exchange c (StreamEither σ τ) β) (u : Url) (hu : x.url = some u)
    (hl : LowerScheme u) (hs : PlainHttp u ∨ SecureHttp u) (host : Bytes) (port : Nat) (hn : Names u host port) (sec : Bool)
    (hsec : sec = true ↔ SecureHttp u) (cl : HttpClient (StreamId α) (StreamEither σ τ)) (a : α) (s : StreamEither σ τ)
    (hp : poolGet ⟨a, host, sec⟩ cl.streams = some s) (w : ω) :
    (∀ rest w1, net.lookup host port w = (.ok (a :: rest), w1) →
      ∃ b, HttpRequestBuilder.new c (HttpUrl.tryFrom u) (if x.put then .Put else .Get) = .ok b ∧
        (exchange (net.connector ssl) x cl w).2.2 = w1 ∧
        ∀ o, b.send s = .ok o → (exchange (net.connector ssl) x cl w).1 = .ok (x.use o).1 ∧
          poolGet ⟨a, host, sec⟩ (exchange (net.connector ssl) x cl w).2.1.streams = some (x.use o).2) ∧
    (∀ a' rest w1, a' ≠ a → net.lookup host port w = (.ok (a' :: rest), w1) →
      poolGet ⟨a, host, sec⟩ (exchange (net.connector ssl) x cl w).2.1.streams = some s) ∧
    (∀ e w1, net.lookup host port w = (.error e, w1) ∨ net.lookup host port w = (.ok [], w1) →
      exchange (net.connector ssl) x cl w = (.err (.io .addrNotAvailable), cl, w1)) := by
  have ha : AsciiText u.scheme := fun b hb => (hl b hb).1
  obtain ⟨b, hb⟩ := (C40_builder c u (if x.put then .Put else .Get) ha).1.2 ⟨hs, ⟨host, hn.1⟩⟩
  obtain ⟨port', sec', h1, h2, h3⟩ := toStreamAddr_eq net hl hs hn.1 w
  obtain ⟨_, rfl⟩ := names_unique ha hn h1
  have : sec' = sec := by
    rw [Bool.eq_iff_iff]; exact h2.trans hsec.symm
  subst this
  refine ⟨fun rest w1 hk => ?_, fun a' rest w1 hne hk => ?_, fun e w1 hk => ?_⟩
  · rw [hk] at h3
    have := C44_reuse (net.connector ssl) x cl w w1 u b hu hb _ s h3 w1 (.inl ⟨hp, rfl⟩)
    exact ⟨b, hb, this.1, this.2.1⟩
  · rw [hk] at h3
    dsimp only at h3
    have hid : (⟨a, host, sec'⟩ : StreamId α) ≠ ⟨a', host, sec'⟩ := fun h => hne (by injection h with h _ _; exact h.symm)
    have other : ∀ st w2, (poolGet ⟨a', host, sec'⟩ cl.streams = some st ∧ w2 = w1) ∨
        (poolGet ⟨a', host, sec'⟩ cl.streams = none ∧ (net.connector ssl).connect ⟨a', host, sec'⟩ w1 = (.ok st, w2)) →
        poolGet ⟨a, host, sec'⟩ (exchange (net.connector ssl) x cl w).2.1.streams = some s := fun st w2 h => by
      rw [(C44_reuse (net.connector ssl) x cl w w1 u b hu hb _ st h3 w2 h).2.2.2 _ hid, hp]
    cases hp' : poolGet ⟨a', host, sec'⟩ cl.streams with
    | some st => exact other st w1 (.inl ⟨hp', rfl⟩)
    | none =>
      rcases hc : (net.connector ssl).connect ⟨a', host, sec'⟩ w1 with ⟨st | e | _, w2⟩
      · exact other st w2 (.inr ⟨hp', hc⟩)
      · rw [(C44_failure (net.connector ssl) x cl w u b hu hb e).2 _ _ _ h3 hp' hc]; exact hp
      · rw [exchange_eq]
        unfold HttpClient.request HttpClient.getStream
        rw [hu]; dsimp only
        rw [hb]; dsimp only
        rw [show (net.connector ssl).toStreamAddr u w = _ from h3]; dsimp only
        rw [hp']; dsimp only
        rw [hc]; exact hp
  · refine (C44_failure (net.connector ssl) x cl w u b hu hb _).1 _ ?_
    show net.toStreamAddr u w = _
    rcases hk with hk | hk <;> rw [hk] at h3 <;> exact h3

end
end

/-- A network in which a host has two addresses, of which the first refuses connections. -/
def twoNet : Net Unit Nat (Duplex Wire Sink) (Duplex Wire Sink) :=
  ⟨fun _ _ w => (.ok [1, 2], w), fun a w => if a = 1 then (.error (.io (.other 111)), w) else (.ok ⟨⟨[]⟩, ⟨[], 0, []⟩⟩, w),
   fun _ s w => (.ok s, w)⟩

/-- `http://h/`. -/
def hostUrl : Url := ⟨b!"http", some b!"h", none, b!"/", none, none, [], none⟩

theorem hostUrl_plain : LowerScheme hostUrl ∧ PlainHttp hostUrl ∧ Names hostUrl b!"h" 80 := by
  have hp : PlainHttp hostUrl := by unfold PlainHttp; rw [utf8_http]; exact sameText_refl _
  exact ⟨by unfold LowerScheme; decide, hp, rfl, by simp [hostUrl], fun _ => .inl ⟨hp, rfl⟩⟩

/-- `twoNet`: the second address would accept a connection, but no connection is opened. -/
theorem C142_any_address_false : let _ := asciiCase
    ¬ ∀ (c : Cfg) (net : Net Unit Nat (Duplex Wire Sink) (Duplex Wire Sink)) (ssl : Bool) (u : Url), LowerScheme u → PlainHttp u →
      Reachable net u () → ∃ a, .inl a ∈ (clientGet c ((watched net).connector ssl) (some u) ((), [])).2.2 := by
  intro _ hall
  obtain ⟨h1, h2, h3⟩ := hostUrl_plain
  have hk : twoNet.lookup b!"h" 80 () = (.ok [1, 2], ()) := rfl
  have h := hall ⟨true⟩ twoNet true hostUrl h1 h2 ⟨_, _, _, _, 2, h3, hk, by simp, fun w2 => ⟨_, _, rfl⟩⟩
  obtain ⟨s, w2, h⟩ := (C142_first_partial (c := ⟨true⟩) twoNet true hostUrl h1 (.inl h2) _ _ h3 () () 1 [2] hk EmptyReader.mk).1.1 h
  exact absurd h (by simp [twoNet])

/-- Witness for `C142_first_partial`: `client::get` on `twoNet` returns the first address's error. -/
example (c : Cfg) : let _ := asciiCase
    clientGet c (twoNet.connector true) (some hostUrl) () = (.err (.io (.other 111)), ()) := by
  intro _
  obtain ⟨h1, h2, h3⟩ := hostUrl_plain
  exact ((C142_first_partial (c := c) twoNet true hostUrl h1 (.inl h2) _ _ h3 () () 1 [2] rfl EmptyReader.mk).2.2 _ _ rfl).1

/-- A network in which each lookup gives another address, and from some time on fails. The world counts the lookups. -/
def rotatingNet (fails : Nat) : Net Nat Nat (Duplex Wire Sink) (Duplex Wire Sink) :=
  ⟨fun _ _ w => if fails ≤ w then (.error (.io (.other 5)), w + 1) else (.ok [w], w + 1), fun _ w => (.ok ⟨⟨[]⟩, ⟨[], 0, []⟩⟩, w),
   fun _ s w => (.ok s, w)⟩

/-- A GET of `http://h/` of which the response is not awaited. -/
def hostGet (c : Cfg) : Exchange c (StreamEither (Duplex Wire Sink) (Duplex Wire Sink)) Unit :=
  ⟨false, some hostUrl, fun o => ((), o.dropped)⟩

/-- A connection is open for the host, but its name cannot be looked up any more: the next request fails. -/
theorem C143_lookup_false : let _ := asciiCase
    ¬ ∀ (c : Cfg) (net : Net Nat Nat (Duplex Wire Sink) (Duplex Wire Sink)),
      let cl := (history (net.connector true) [hostGet c] .new 0).2
      (∃ id, (poolGet id cl.1.streams).isSome = true) → (exchange (net.connector true) (hostGet c) cl.1 cl.2).1 = .ok () := by
  intro _ hall
  exact absurd (hall ⟨true⟩ (rotatingNet 1) ⟨⟨0, b!"h", false⟩, by decide +kernel⟩) (by decide +kernel)

/-- As many requests for the same URL open as many connections, and all of these are kept, if no two lookups give the same address
first. -/
theorem C143_grows (c : Cfg) (n fails : Nat) (hn : n ≤ fails) : let _ := asciiCase
    let after := history (logged ((rotatingNet fails).connector true)) (List.replicate n (hostGet c)) .new (0, [])
    after.2.2.2 = (List.range n).map (fun i => (⟨i, b!"h", false⟩, true)) ∧
      ∀ i < n, (poolGet ⟨i, b!"h", false⟩ after.2.1.streams).isSome = true := by
  intro _
  obtain ⟨h1, h2, h3⟩ := hostUrl_plain
  have ha : AsciiText hostUrl.scheme := fun b hb => (h1 b hb).1
  obtain ⟨b, hb⟩ := (C40_builder c hostUrl .Get ha).1.2 ⟨.inl h2, ⟨_, rfl⟩⟩
  have hsec : ¬ SecureHttp hostUrl := by
    unfold SecureHttp
    rw [utf8_https, sameText_lower ha _ (by decide) (by decide)]
    decide
  have key : ∀ (n w : Nat) (cl : HttpClient (StreamId Nat) (StreamEither (Duplex Wire Sink) (Duplex Wire Sink)))
      (log : List (StreamId Nat × Bool)), w + n ≤ fails → (∀ i, w ≤ i → poolGet ⟨i, b!"h", false⟩ cl.streams = none) →
      let after := history (logged ((rotatingNet fails).connector true)) (List.replicate n (hostGet c)) cl (w, log)
      after.2.2.2 = log ++ (List.range' w n).map (fun i => (⟨i, b!"h", false⟩, true)) ∧
        (∀ i, w ≤ i → i < w + n → (poolGet ⟨i, b!"h", false⟩ after.2.1.streams).isSome = true) ∧
        ∀ i, (poolGet ⟨i, b!"h", false⟩ cl.streams).isSome = true → (poolGet ⟨i, b!"h", false⟩ after.2.1.streams).isSome = true := by
    intro n
    induction n with
    | zero => intro w cl log _ _; exact ⟨by simp [history], fun i _ _ => by omega, fun i h => h⟩
    | succ n ih =>
      intro w cl log hw hcl
      obtain ⟨port, sec, k1, k2, k3⟩ := toStreamAddr_eq (rotatingNet fails) h1 (.inl h2) (host := b!"h") rfl w
      have hs : sec = false := by
        cases sec with
        | false => rfl
        | true => exact absurd (k2.1 rfl) hsec
      subst hs
      have hta : (logged ((rotatingNet fails).connector true)).toStreamAddr hostUrl (w, log) = (.ok ⟨w, b!"h", false⟩, w + 1, log) := by
        have hlk : (rotatingNet fails).lookup b!"h" port w = (.ok [w], w + 1) := by
          show (if fails ≤ w then _ else _) = _
          rw [if_neg (by omega)]
        rw [hlk] at k3
        show (((rotatingNet fails).toStreamAddr hostUrl w).1, ((rotatingNet fails).toStreamAddr hostUrl w).2, log) = _
        rw [k3]
      obtain ⟨cl', e1, e2, e3⟩ := exchange_on (logged ((rotatingNet fails).connector true)) (hostGet c) cl (w, log) (w + 1, log)
        (w + 1, log ++ [(⟨w, b!"h", false⟩, true)]) hostUrl b rfl hb _ _ hta (.inr ⟨hcl w (Nat.le_refl _), rfl⟩)
      obtain ⟨i1, i2, i3⟩ := ih (w + 1) cl' (log ++ [(⟨w, b!"h", false⟩, true)]) (by omega) fun i hi => by
        rw [e3 _ (by intro h; injection h with h _ _; omega)]; exact hcl i (by omega)
      have hstep : history (logged ((rotatingNet fails).connector true)) (List.replicate (n + 1) (hostGet c)) cl (w, log) =
          ((exchange (logged ((rotatingNet fails).connector true)) (hostGet c) cl (w, log)).1 ::
            (history (logged ((rotatingNet fails).connector true)) (List.replicate n (hostGet c)) cl' (w + 1, log ++ [(⟨w, b!"h", false⟩, true)])).1,
            (history (logged ((rotatingNet fails).connector true)) (List.replicate n (hostGet c)) cl' (w + 1, log ++ [(⟨w, b!"h", false⟩, true)])).2) := by
        have hcons : ∀ (x : Exchange c (StreamEither (Duplex Wire Sink) (Duplex Wire Sink)) Unit) xs v,
            history (logged ((rotatingNet fails).connector true)) (x :: xs) cl v =
              ((exchange (logged ((rotatingNet fails).connector true)) x cl v).1 ::
                (history (logged ((rotatingNet fails).connector true)) xs (exchange (logged ((rotatingNet fails).connector true)) x cl v).2.1
                  (exchange (logged ((rotatingNet fails).connector true)) x cl v).2.2).1,
                (history (logged ((rotatingNet fails).connector true)) xs (exchange (logged ((rotatingNet fails).connector true)) x cl v).2.1
                  (exchange (logged ((rotatingNet fails).connector true)) x cl v).2.2).2) := fun _ _ _ => rfl
        rw [List.replicate_succ, hcons, e1]
      dsimp only
      rw [hstep]
      dsimp only
      refine ⟨?_, fun i hi1 hi2 => ?_, fun i hi => ?_⟩
      · rw [i1, List.range'_succ]; simp
      · by_cases h : i = w
        · subst h; exact i3 i (by rw [e2]; rfl)
        · exact i2 i (by omega) (by omega)
      · refine i3 i ?_
        by_cases h : i = w
        · subst h; rw [e2]; rfl
        · rw [e3 _ (by intro h'; injection h' with h' _ _; exact h h')]; exact hi
  obtain ⟨g1, g2, _⟩ := key n 0 .new [] (by omega) fun _ _ => rfl
  dsimp only at g1 g2 ⊢
  exact ⟨by rw [g1, List.range_eq_range']; rfl, fun i hi => g2 i (Nat.zero_le _) (by omega)⟩

/-- Two requests for the same URL open two connections, if the two lookups do not give the same address first. -/
theorem C143_rotating_false : let _ := asciiCase
    ¬ ∀ (c : Cfg) (net : Net Nat Nat (Duplex Wire Sink) (Duplex Wire Sink)) (n : Nat),
      (history (logged (net.connector true)) (List.replicate n (hostGet c)) .new (0, [])).2.2.2.length ≤ 1 := by
  intro _ hall
  exact absurd (hall ⟨true⟩ (rotatingNet 10) 2) (by decide +kernel)

/-- Witness for `C143_pooled_partial`: a network whose lookups always give the same address; the second request goes over the
connection that the first has opened. -/
example (c : Cfg) : let _ := asciiCase
    (history (logged (twoNet.connector true)) [hostGet c, hostGet c] ⟨[(⟨1, b!"h", false⟩, .A ⟨⟨[]⟩, ⟨[], 0, []⟩⟩)]⟩ ((), [])).2.2.2 = [] ∧
    (exchange (twoNet.connector true) (hostGet c) ⟨[(⟨1, b!"h", false⟩, .A ⟨⟨[]⟩, ⟨[], 0, []⟩⟩)]⟩ ()).2.2 = () := by
  rcases c with ⟨_ | _⟩ <;> decide +kernel

/-- The same from the theorem. -/
example (c : Cfg) (s : StreamEither (Duplex Wire Sink) (Duplex Wire Sink)) : let _ := asciiCase
    ∃ b, HttpRequestBuilder.new c (HttpUrl.tryFrom hostUrl) .Get = .ok b ∧
      ∀ o, b.send s = .ok o → poolGet ⟨1, b!"h", false⟩ (exchange (twoNet.connector true) (hostGet c) ⟨[(⟨1, b!"h", false⟩, s)]⟩ ()).2.1.streams =
        some o.dropped := by
  intro _
  obtain ⟨h1, h2, h3⟩ := hostUrl_plain
  have hsec : ¬ SecureHttp hostUrl := by
    unfold SecureHttp
    rw [utf8_https, sameText_lower (fun b hb => (h1 b hb).1) _ (by decide) (by decide)]
    decide
  obtain ⟨b, hb, _, h⟩ := (C143_pooled_partial (c := c) twoNet true (hostGet c) hostUrl rfl h1 (.inl h2) _ _ h3 false (by simp [hsec])
    ⟨[(⟨1, b!"h", false⟩, s)]⟩ 1 s rfl ()).1 [2] () rfl
  exact ⟨b, hb, fun o ho => (h o ho).2⟩

end HttpIo
