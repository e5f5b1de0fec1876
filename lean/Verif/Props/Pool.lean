import Verif.Spec.Client
import Verif.Props.Client

/-! C44: the connections of an `HttpClient`. -/

namespace HttpIo
open Spec

section
variable {α σ : Type} [DecidableEq α]

theorem poolGet_set_same (a : α) (s : σ) (l : List (α × σ)) : poolGet a (poolSet a s l) = some s := by
  induction l with
  | nil => simp [poolSet, poolGet]
  | cons x l ih =>
    obtain ⟨a', s'⟩ := x
    unfold poolSet
    by_cases h : a = a'
    · rw [if_pos h, poolGet, if_pos h]
    · rw [if_neg h, poolGet, if_neg h, ih]

theorem poolGet_set_other {a b : α} (hab : b ≠ a) (s : σ) (l : List (α × σ)) : poolGet b (poolSet a s l) = poolGet b l := by
  induction l with
  | nil => simp [poolSet, poolGet, hab]
  | cons x l ih =>
    obtain ⟨a', s'⟩ := x
    unfold poolSet
    by_cases h : a = a'
    · rw [if_pos h, poolGet, poolGet]
      subst h
      rw [if_neg hab, if_neg hab]
    · rw [if_neg h, poolGet, poolGet, ih]

end

section
variable [CaseMap] {c : Cfg} {ω α σ β : Type} [DecidableEq α] [Writer σ]

/-- Both functions of the client, uniformly. -/
theorem exchange_eq (N : StreamConnector ω α σ) (x : Exchange c σ β) (cl : HttpClient α σ) (w : ω) :
    exchange N x cl w =
      match cl.request c N (if x.put then .Put else .Get) x.url w with
      | (.err e, cl, w) => (.err e, cl, w)
      | (.panic, cl, w) => (.panic, cl, w)
      | (.ok (a, o), cl, w) => (.ok (x.use o).1, cl.putBack a (x.use o).2, w) := by
  unfold exchange HttpClient.get HttpClient.put
  cases x.put <;> rfl

/-- The request of an exchange. -/
abbrev Spec.Exchange.method (x : Exchange c σ β) : HttpMethod := if x.put then .Put else .Get

theorem exchange_lookup_failed (N : StreamConnector ω α σ) (x : Exchange c σ β) (cl : HttpClient α σ) (w w1 : ω) (u : Url)
    (b : HttpRequestBuilder c) (hu : x.url = some u) (hb : HttpRequestBuilder.new c (HttpUrl.tryFrom u) x.method = .ok b)
    (e : Err) (h : N.toStreamAddr u w = (.err e, w1)) : exchange N x cl w = (.err e, cl, w1) := by
  rw [exchange_eq]
  unfold HttpClient.request HttpClient.getStream
  rw [hu]; dsimp only
  rw [hb]; dsimp only
  rw [h]

theorem exchange_connect_failed (N : StreamConnector ω α σ) (x : Exchange c σ β) (cl : HttpClient α σ) (w w1 w2 : ω) (u : Url)
    (b : HttpRequestBuilder c) (hu : x.url = some u) (hb : HttpRequestBuilder.new c (HttpUrl.tryFrom u) x.method = .ok b)
    (a : α) (e : Err) (h : N.toStreamAddr u w = (.ok a, w1)) (hp : poolGet a cl.streams = none)
    (hc : N.connect a w1 = (.err e, w2)) : exchange N x cl w = (.err e, cl, w2) := by
  rw [exchange_eq]
  unfold HttpClient.request HttpClient.getStream
  rw [hu]; dsimp only
  rw [hb]; dsimp only
  rw [h]; dsimp only
  rw [hp]; dsimp only
  rw [hc]

/-- How a use ends, given the connection it gets. -/
theorem exchange_on (N : StreamConnector ω α σ) (x : Exchange c σ β) (cl : HttpClient α σ) (w w1 w2 : ω) (u : Url)
    (b : HttpRequestBuilder c) (hu : x.url = some u) (hb : HttpRequestBuilder.new c (HttpUrl.tryFrom u) x.method = .ok b)
    (a : α) (s : σ) (h : N.toStreamAddr u w = (.ok a, w1))
    (hs : (poolGet a cl.streams = some s ∧ w2 = w1) ∨ (poolGet a cl.streams = none ∧ N.connect a w1 = (.ok s, w2))) :
    ∃ cl', exchange N x cl w = ((match b.send s with | .ok o => .ok (x.use o).1 | .error (e, _) => .err e), cl', w2) ∧
      poolGet a cl'.streams = some (match b.send s with | .ok o => (x.use o).2 | .error (_, s') => s') ∧
      ∀ a', a' ≠ a → poolGet a' cl'.streams = poolGet a' cl.streams := by
  rw [exchange_eq]
  unfold HttpClient.request HttpClient.getStream
  rw [hu]; dsimp only
  rw [hb]; dsimp only
  rw [h]; dsimp only
  rcases hs with ⟨hp, rfl⟩ | ⟨hp, hc⟩
  · rw [hp]; dsimp only
    cases b.send s with
    | error x =>
      obtain ⟨e, s'⟩ := x
      exact ⟨_, rfl, poolGet_set_same _ _ _, fun a' ha => poolGet_set_other ha _ _⟩
    | ok o => exact ⟨_, rfl, poolGet_set_same _ _ _, fun a' ha => poolGet_set_other ha _ _⟩
  · rw [hp]; dsimp only
    rw [hc]; dsimp only
    cases b.send s with
    | error x =>
      obtain ⟨e, s'⟩ := x
      exact ⟨_, rfl, poolGet_set_same _ _ _, fun a' ha => by
        unfold HttpClient.putBack; dsimp only; rw [poolGet_set_other ha, poolGet_set_other ha]⟩
    | ok o => exact ⟨_, rfl, poolGet_set_same _ _ _, fun a' ha => by
        unfold HttpClient.putBack; dsimp only; rw [poolGet_set_other ha, poolGet_set_other ha]⟩

/-- If the lookup or the connection attempt fails, the use fails with that error and the client has the same
connections as before. -/
theorem C44_failure (N : StreamConnector ω α σ) (x : Exchange c σ β) (cl : HttpClient α σ) (w : ω) (u : Url)
    (b : HttpRequestBuilder c) (hu : x.url = some u)
    (hb : HttpRequestBuilder.new c (HttpUrl.tryFrom u) (if x.put then .Put else .Get) = .ok b) (e : Err) :
    (∀ w1, N.toStreamAddr u w = (.err e, w1) → exchange N x cl w = (.err e, cl, w1)) ∧
    (∀ a w1 w2, N.toStreamAddr u w = (.ok a, w1) → poolGet a cl.streams = none → N.connect a w1 = (.err e, w2) →
      exchange N x cl w = (.err e, cl, w2)) :=
  ⟨fun w1 h => exchange_lookup_failed N x cl w w1 u b hu hb e h,
    fun a w1 w2 h hp hc => exchange_connect_failed N x cl w w1 w2 u b hu hb a e h hp hc⟩

/-- A use gets the pooled connection of its address in the state in which it was left, without a connection attempt
(the world after is the one after the lookup); and a new one exactly if there is none. What the use leaves becomes the
pooled connection of the address; those of other addresses stay. -/
theorem C44_reuse (N : StreamConnector ω α σ) (x : Exchange c σ β) (cl : HttpClient α σ) (w w1 : ω) (u : Url)
    (b : HttpRequestBuilder c) (hu : x.url = some u)
    (hb : HttpRequestBuilder.new c (HttpUrl.tryFrom u) (if x.put then .Put else .Get) = .ok b)
    (a : α) (s : σ) (h : N.toStreamAddr u w = (.ok a, w1)) (w2 : ω)
    (hs : (poolGet a cl.streams = some s ∧ w2 = w1) ∨ (poolGet a cl.streams = none ∧ N.connect a w1 = (.ok s, w2))) :
    (exchange N x cl w).2.2 = w2 ∧
    (∀ o, b.send s = .ok o → (exchange N x cl w).1 = .ok (x.use o).1 ∧
      poolGet a (exchange N x cl w).2.1.streams = some (x.use o).2) ∧
    (∀ e s', b.send s = .error (e, s') → (exchange N x cl w).1 = .err e ∧
      poolGet a (exchange N x cl w).2.1.streams = some s') ∧
    ∀ a', a' ≠ a → poolGet a' (exchange N x cl w).2.1.streams = poolGet a' cl.streams := by
  obtain ⟨cl', h1, h2, h3⟩ := exchange_on N x cl w w1 w2 u b hu hb a s h hs
  rw [h1]
  refine ⟨rfl, fun o ho => ?_, fun e s' hse => ?_, h3⟩
  · rw [ho] at h2 ⊢; exact ⟨rfl, h2⟩
  · rw [hse] at h2 ⊢; exact ⟨rfl, h2⟩

/-- The log has no attempt after a success for the same address, and the successes are the pooled connections. -/
def LogInv (cl : HttpClient α σ) (log : List (α × Bool)) : Prop :=
  (∀ pre a b post, log = pre ++ (a, b) :: post → (a, true) ∉ pre) ∧
  ∀ a, (poolGet a cl.streams).isSome = true ↔ (a, true) ∈ log

omit [CaseMap] [Writer σ] in
theorem LogInv.attempt {cl : HttpClient α σ} {log : List (α × Bool)} (h : LogInv cl log) {a : α}
    (ha : poolGet a cl.streams = none) (ok : Bool) :
    ∀ pre a' b post, log ++ [(a, ok)] = pre ++ (a', b) :: post → (a', true) ∉ pre := by
  intro pre a' b post heq
  have hno : (a, true) ∉ log := fun hm => by
    have := (h.2 a).2 hm
    rw [ha] at this
    simp at this
  rcases List.eq_nil_or_concat post with rfl | ⟨post', y, rfl⟩
  · have := List.append_inj' heq rfl
    simp only [List.cons.injEq, Prod.mk.injEq, and_true] at this
    rw [← this.1, ← this.2.1]
    exact hno
  · have hl : pre ++ (a', b) :: (post'.concat y) = (pre ++ (a', b) :: post') ++ [y] := by simp
    rw [hl] at heq
    exact h.1 pre a' b post' (List.append_inj' heq rfl).1

omit [CaseMap] [Writer σ] in
theorem LogInv.mem {cl cl' : HttpClient α σ} {log : List (α × Bool)} (h : LogInv cl log) {a : α} {s : σ}
    (h1 : poolGet a cl'.streams = some s) (h2 : ∀ a', a' ≠ a → poolGet a' cl'.streams = poolGet a' cl.streams)
    (a' : α) : (poolGet a' cl'.streams).isSome = true ↔ (a', true) ∈ log ∨ a' = a := by
  by_cases haa : a' = a
  · subst haa; rw [h1]; simp
  · rw [h2 a' haa, h.2 a']; simp [haa]

omit [CaseMap] [Writer σ] in
theorem logged_connect (N : StreamConnector ω α σ) (a : α) (w : ω × List (α × Bool)) :
    ∃ r w', (logged N).connect a w = (r, w', w.2 ++ [(a, match r with | .ok _ => true | _ => false)]) := by
  unfold logged
  dsimp only
  rcases N.connect a w.1 with ⟨_ | _ | _, w'⟩ <;> exact ⟨_, _, rfl⟩

omit [CaseMap] [Writer σ] in
theorem logged_addr (N : StreamConnector ω α σ) (u : Url) (w : ω × List (α × Bool)) :
    ∃ r w', (logged N).toStreamAddr u w = (r, w', w.2) := ⟨_, _, rfl⟩

omit [CaseMap] [Writer σ] in
theorem getStream_inv (N : StreamConnector ω α σ) (cl : HttpClient α σ) (u : Url) (w : ω × List (α × Bool))
    (h : LogInv cl w.2) :
    ∃ r cl' w', cl.getStream (logged N) u w = (r, cl', w') ∧ LogInv cl' w'.2 ∧
      ∀ a s, r = .ok (a, s) → ∃ s', poolGet a cl'.streams = some s' := by
  unfold HttpClient.getStream
  obtain ⟨r, w1, h1⟩ := logged_addr N u w
  rw [h1]
  cases r with
  | err e => exact ⟨_, _, _, rfl, h, by simp⟩
  | panic => exact ⟨_, _, _, rfl, h, by simp⟩
  | ok a =>
    dsimp only
    cases hp : poolGet a cl.streams with
    | some s =>
      refine ⟨_, _, _, rfl, h, ?_⟩
      intro a' s' he
      simp only [Res.ok.injEq, Prod.mk.injEq] at he
      exact ⟨s, by rw [← he.1]; exact hp⟩
    | none =>
      dsimp only
      obtain ⟨r, w2, h2⟩ := logged_connect N a (w1, w.2)
      rw [h2]
      cases r with
      | err e =>
        refine ⟨_, _, _, rfl, ⟨h.attempt hp false, fun a' => ?_⟩, by simp⟩
        dsimp only
        rw [h.2 a']; simp
      | panic =>
        refine ⟨_, _, _, rfl, ⟨h.attempt hp false, fun a' => ?_⟩, by simp⟩
        dsimp only
        rw [h.2 a']; simp
      | ok s =>
        refine ⟨_, _, _, rfl, ⟨h.attempt hp true, fun a' => ?_⟩, ?_⟩
        · rw [h.mem (cl' := ⟨poolSet a s cl.streams⟩) (poolGet_set_same a s _) (fun a' ha => poolGet_set_other ha _ _) a']
          simp
        · intro a' s' he
          simp only [Res.ok.injEq, Prod.mk.injEq] at he
          exact ⟨s, by rw [← he.1]; exact poolGet_set_same _ _ _⟩

omit [CaseMap] [Writer σ] in
theorem putBack_inv {cl : HttpClient α σ} {log : List (α × Bool)} (h : LogInv cl log) {a : α} {s' : σ}
    (ha : poolGet a cl.streams = some s') (s : σ) : LogInv (cl.putBack a s) log := by
  refine ⟨h.1, fun a' => ?_⟩
  rw [h.mem (cl' := cl.putBack a s) (poolGet_set_same a s _) (fun a' ha => poolGet_set_other ha _ _) a']
  constructor
  · rintro (h1 | rfl)
    · exact h1
    · exact (h.2 a').1 (by rw [ha]; rfl)
  · exact .inl

theorem exchange_inv (N : StreamConnector ω α σ) (x : Exchange c σ β) (cl : HttpClient α σ) (w : ω × List (α × Bool))
    (h : LogInv cl w.2) : LogInv (exchange (logged N) x cl w).2.1 (exchange (logged N) x cl w).2.2.2 := by
  rw [exchange_eq]
  unfold HttpClient.request
  cases x.url with
  | none => exact h
  | some u =>
    dsimp only
    cases HttpRequestBuilder.new c (HttpUrl.tryFrom u) (if x.put then .Put else .Get) with
    | err e => exact h
    | panic => exact h
    | ok b =>
      dsimp only
      obtain ⟨r, cl', w', h1, h2, h3⟩ := getStream_inv N cl u w h
      rw [h1]
      cases r with
      | err e => exact h2
      | panic => exact h2
      | ok as =>
        obtain ⟨a, s⟩ := as
        obtain ⟨s', h4⟩ := h3 a s rfl
        dsimp only
        cases b.send s with
        | error es =>
          obtain ⟨e, s''⟩ := es
          exact putBack_inv h2 h4 s''
        | ok o => exact putBack_inv h2 h4 _

/-- Over every history of uses of a new client, whatever the callers do with their requests and whatever lookups and
connection attempts give: after a successful attempt for an address there is no further attempt for it, and the
addresses with a pooled connection are exactly those with a successful attempt. -/
theorem C44_one_connection (N : StreamConnector ω α σ) (xs : List (Exchange c σ β)) (w : ω) :
    let cl := (history (logged N) xs HttpClient.new (w, [])).2.1
    let log := (history (logged N) xs HttpClient.new (w, [])).2.2.2
    (∀ pre a ok post, log = pre ++ (a, ok) :: post → (a, true) ∉ pre) ∧
    ∀ a, (poolGet a cl.streams).isSome = true ↔ (a, true) ∈ log := by
  have key : ∀ (xs : List (Exchange c σ β)) (cl : HttpClient α σ) (w : ω × List (α × Bool)), LogInv cl w.2 →
      LogInv (history (logged N) xs cl w).2.1 (history (logged N) xs cl w).2.2.2 := by
    intro xs
    induction xs with
    | nil => intro cl w h; exact h
    | cons x xs ih => intro cl w h; exact ih _ _ (exchange_inv N x cl w h)
  exact key xs HttpClient.new (w, []) ⟨by simp, by simp [HttpClient.new, poolGet]⟩

end

/-- A network with two addresses, by port; the first attempt for each fails. -/
def flaky : StreamConnector (List Nat) Nat (Duplex Wire Sink) :=
  ⟨fun a w => if a ∈ w then (.ok ⟨⟨[]⟩, ⟨[], 0, []⟩⟩, w) else (.err (.io (.other 1)), a :: w),
    fun u w => (.ok (u.port.getD 80), w)⟩

/-- Witness: four requests to one address and one to another: a failed attempt, a successful one, then no more. -/
example : let _ := asciiCase
    let x (p : Nat) : Exchange ⟨false⟩ (Duplex Wire Sink) Unit :=
      ⟨false, some ⟨b!"http", some b!"h", some p, b!"/p", none, none, [], none⟩, fun o => ((), o.dropped)⟩
    (history (logged flaky) [x 1, x 1, x 2, x 1, x 1] HttpClient.new ([], [])).2.2.2 =
      [(1, false), (1, true), (2, false)] := by decide +kernel

section
variable [CaseMap] {c : Cfg} {ω α σ : Type} [DecidableEq α] [LawfulWriter σ]

theorem pooled_request (N : StreamConnector ω α σ) (u : Url) (host : Bytes) (hs : AsciiText u.scheme)
    (hu : PlainHttp u ∨ SecureHttp u) (hh : u.host = some host) (m : HttpMethod) (cl cl' : HttpClient α σ) (w w' : ω) (a : α)
    (o : OutgoingRequest c σ) (h : cl.request c N m (some u) w = (.ok (a, o), cl', w')) :
    ∃ w1 s, N.toStreamAddr u w = (.ok a, w1) ∧
      ((poolGet a cl.streams = some s ∧ cl' = cl ∧ w' = w1) ∨ (poolGet a cl.streams = none ∧ N.connect a w1 = (.ok s, w'))) ∧
      poolGet a cl'.streams = some s ∧
      outgoingSent o = sent s ++ requestHead m (requestTarget { u with query := none }) (standardHeaders m host) ∧
      ((∃ b, o = .WithBody b) ↔ m = .Delete ∨ m = .Post ∨ m = .Put) := by
  obtain ⟨sc, h1, _⟩ := HttpUrl.tryFrom_ok hs hu hh
  obtain ⟨b, h2, h3, h4, h5, h6⟩ := HttpRequestBuilder.new_ok c ⟨u, sc, host⟩ m
  unfold HttpClient.request HttpClient.getStream at h
  dsimp only at h
  rw [h1, h2] at h
  dsimp only at h
  have fin : ∀ s, b.send s = .ok o →
      outgoingSent o = sent s ++ requestHead m (requestTarget { u with query := none }) (standardHeaders m host) ∧
      ((∃ b, o = .WithBody b) ↔ m = .Delete ∨ m = .Post ∨ m = .Put) := by
    intro s ho
    obtain ⟨k1, k2⟩ := C18_serialized b.request s h5 o ho
    rw [h3, h4, h6, ← target_eq] at k1
    rw [h3] at k2
    exact ⟨k1, k2⟩
  rcases hta : N.toStreamAddr u w with ⟨a0 | e | _, w1⟩ <;> rw [hta] at h <;> dsimp only at h
  · cases hp : poolGet a0 cl.streams with
    | some s =>
      rw [hp] at h
      dsimp only at h
      cases hb : b.send s with
      | error x => rw [hb] at h; simp at h
      | ok o0 =>
        rw [hb] at h
        simp only [Prod.mk.injEq, Res.ok.injEq] at h
        obtain ⟨⟨rfl, rfl⟩, rfl, rfl⟩ := h
        exact ⟨w1, s, rfl, .inl ⟨hp, rfl, rfl⟩, hp, fin s hb⟩
    | none =>
      rw [hp] at h
      dsimp only at h
      rcases hc : N.connect a0 w1 with ⟨s | e | _, w2⟩ <;> rw [hc] at h <;> dsimp only at h
      · cases hb : b.send s with
        | error x => rw [hb] at h; simp at h
        | ok o0 =>
          rw [hb] at h
          simp only [Prod.mk.injEq, Res.ok.injEq] at h
          obtain ⟨⟨rfl, rfl⟩, rfl, rfl⟩ := h
          exact ⟨w1, s, rfl, .inr ⟨hp, hc⟩, poolGet_set_same _ _ _, fin s hb⟩
      · simp at h
      · simp at h
  · simp at h
  · simp at h

/-- `HttpClient::get` sends a GET request, `HttpClient::put` the head of a PUT request, with the standard headers, on the
pooled connection of the address or on a new one, which is then pooled. -/
theorem C37_pooled (N : StreamConnector ω α σ) (u : Url) (host : Bytes) (hs : AsciiText u.scheme)
    (hu : PlainHttp u ∨ SecureHttp u) (hh : u.host = some host) (cl cl' : HttpClient α σ) (w w' : ω) (a : α)
    (o : OutgoingRequest c σ) :
    ∀ x ∈ [(cl.get c N (some u) w, HttpMethod.Get), (cl.put c N (some u) w, .Put)], x.1 = (.ok (a, o), cl', w') →
    ∃ w1 s, N.toStreamAddr u w = (.ok a, w1) ∧
      ((poolGet a cl.streams = some s ∧ cl' = cl ∧ w' = w1) ∨ (poolGet a cl.streams = none ∧ N.connect a w1 = (.ok s, w'))) ∧
      poolGet a cl'.streams = some s ∧
      outgoingSent o = sent s ++ requestHead x.2 (requestTarget { u with query := none }) (standardHeaders x.2 host) ∧
      ((∃ b, o = .WithBody b) ↔ x.2 = .Put) := by
  intro x hx h
  simp only [List.mem_cons, List.not_mem_nil, or_false] at hx
  rcases hx with rfl | rfl
  · obtain ⟨w1, s, k1, k2, k3, k4, k5⟩ := pooled_request N u host hs hu hh .Get cl cl' w w' a o h
    refine ⟨w1, s, k1, k2, k3, k4, k5.trans ?_⟩
    simp
  · obtain ⟨w1, s, k1, k2, k3, k4, k5⟩ := pooled_request N u host hs hu hh .Put cl cl' w w' a o h
    refine ⟨w1, s, k1, k2, k3, k4, k5.trans ?_⟩
    simp

end

/-- Witness: a PUT on a new connection. -/
example : let _ := asciiCase
    let u : Url := ⟨b!"http", some b!"h", some 1, b!"/p", none, none, [], none⟩
    ∃ a o cl' w', (HttpClient.new : HttpClient Nat (Duplex Wire Sink)).put ⟨false⟩ flaky (some u) [1] = (.ok (a, o), cl', w') ∧
      AsciiText u.scheme ∧ PlainHttp u := by
  intro _ u
  have h : (match (HttpClient.new : HttpClient Nat (Duplex Wire Sink)).put ⟨false⟩ flaky (some u) [1] with
      | (.ok _, _, _) => true | _ => false) = true := by decide +kernel
  rcases hp : (HttpClient.new : HttpClient Nat (Duplex Wire Sink)).put ⟨false⟩ flaky (some u) [1] with ⟨⟨a, o⟩ | e | _, cl', w'⟩
  · exact ⟨a, o, cl', w', rfl, by rw [← isAscii_iff]; decide, by unfold PlainHttp; rw [utf8_http]; exact sameText_refl _⟩
  · rw [hp] at h; cases h
  · rw [hp] at h; cases h

end HttpIo
