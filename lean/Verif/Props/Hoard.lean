import Verif.Props.Pool

/-! C173: how many connections a client keeps. -/

namespace HttpIo
open Spec

/-- The addresses of the connections that a client keeps. -/
def Spec.kept {α σ : Type} (cl : HttpClient α σ) : List α := cl.streams.map (·.1)

/-- The addresses of the attempts that succeeded. -/
def Spec.opened {α : Type} (log : List (α × Bool)) : List α := (log.filter (·.2)).map (·.1)

section
variable [CaseMap] {c : Cfg} {ω α σ β : Type} [DecidableEq α] [Writer σ]

omit [CaseMap] [Writer σ] in
theorem poolGet_none_iff {a : α} {l : List (α × σ)} : poolGet a l = none ↔ a ∉ l.map (·.1) := by
  induction l with
  | nil => simp [poolGet]
  | cons x l ih =>
    obtain ⟨a', s'⟩ := x
    unfold poolGet
    by_cases h : a = a'
    · simp [h]
    · rw [if_neg h, ih]; simp [h]

omit [CaseMap] [Writer σ] in
theorem keys_poolSet (a : α) (s : σ) (l : List (α × σ)) :
    (poolSet a s l).map (·.1) = if a ∈ l.map (·.1) then l.map (·.1) else l.map (·.1) ++ [a] := by
  induction l with
  | nil => simp [poolSet]
  | cons x l ih =>
    obtain ⟨a', s'⟩ := x
    unfold poolSet
    by_cases h : a = a'
    · simp [h]
    · rw [if_neg h, List.map_cons, ih]
      by_cases h' : a ∈ l.map (·.1)
      · rw [if_pos h', if_pos (by rw [List.map_cons]; exact List.mem_cons_of_mem _ h')]; rfl
      · rw [if_neg h', if_neg (by rw [List.map_cons, List.mem_cons]; exact fun h1 => h1.elim h h')]
        rfl

/-- What a step adds to the connections kept and to those opened. -/
def Grows (cl cl' : HttpClient α σ) (log log' : List (α × Bool)) : Prop :=
  ∃ new, kept cl' = kept cl ++ new ∧ opened log' = opened log ++ new ∧ new.Nodup ∧ ∀ a ∈ new, a ∉ kept cl

omit [CaseMap] [Writer σ] in
theorem Grows.refl (cl : HttpClient α σ) (log : List (α × Bool)) : Grows cl cl log log := ⟨[], by simp, by simp, by simp, by simp⟩

omit [CaseMap] [Writer σ] in
theorem Grows.trans {cl cl' cl'' : HttpClient α σ} {log log' log'' : List (α × Bool)} (h : Grows cl cl' log log')
    (h' : Grows cl' cl'' log' log'') : Grows cl cl'' log log'' := by
  obtain ⟨n, h1, h2, h3, h4⟩ := h
  obtain ⟨n', k1, k2, k3, k4⟩ := h'
  refine ⟨n ++ n', by rw [k1, h1, List.append_assoc], by rw [k2, h2, List.append_assoc], ?_, ?_⟩
  · rw [List.nodup_append]
    refine ⟨h3, k3, ?_⟩
    rintro a ha b hb rfl
    exact k4 a hb (by rw [h1]; simp [ha])
  · intro a ha
    rcases List.mem_append.1 ha with ha | ha
    · exact h4 a ha
    · intro hk; exact k4 a ha (by rw [h1]; simp [hk])

omit [CaseMap] [Writer σ] in
theorem putBack_keys {cl : HttpClient α σ} {a : α} (h : a ∈ kept cl) (s : σ) : kept (cl.putBack a s) = kept cl := by
  unfold HttpClient.putBack kept
  rw [keys_poolSet]
  exact if_pos h

omit [CaseMap] [Writer σ] in
theorem getStream_grows (N : StreamConnector ω α σ) (cl : HttpClient α σ) (u : Url) (w : ω × List (α × Bool)) :
    ∃ r cl' w', cl.getStream (logged N) u w = (r, cl', w') ∧ Grows cl cl' w.2 w'.2 ∧
      ∀ a s, r = .ok (a, s) → a ∈ kept cl' := by
  unfold HttpClient.getStream
  obtain ⟨r, w1, h1⟩ := logged_addr N u w
  rw [h1]
  cases r with
  | err e => exact ⟨_, _, _, rfl, .refl _ _, by simp⟩
  | panic => exact ⟨_, _, _, rfl, .refl _ _, by simp⟩
  | ok a =>
    dsimp only
    cases hp : poolGet a cl.streams with
    | some s =>
      refine ⟨_, _, _, rfl, .refl _ _, ?_⟩
      intro a' s' he
      simp only [Res.ok.injEq, Prod.mk.injEq] at he
      rw [← he.1]
      by_cases hm : a ∈ kept cl
      · exact hm
      · rw [poolGet_none_iff.2 hm] at hp; simp at hp
    | none =>
      dsimp only
      have hno := poolGet_none_iff.1 hp
      obtain ⟨r, w2, h2⟩ := logged_connect N a (w1, w.2)
      rw [h2]
      cases r with
      | err e => exact ⟨_, _, _, rfl, ⟨[], by simp, by simp [opened], by simp, by simp⟩, by simp⟩
      | panic => exact ⟨_, _, _, rfl, ⟨[], by simp, by simp [opened], by simp, by simp⟩, by simp⟩
      | ok s =>
        have hk : kept (⟨poolSet a s cl.streams⟩ : HttpClient α σ) = kept cl ++ [a] := by
          unfold kept; rw [keys_poolSet, if_neg hno]
        refine ⟨_, _, _, rfl, ⟨[a], hk, by simp [opened], by simp, ?_⟩, ?_⟩
        · intro a' ha'; rw [List.mem_singleton] at ha'; rw [ha']; exact hno
        · intro a' s' he
          simp only [Res.ok.injEq, Prod.mk.injEq] at he
          rw [hk, ← he.1]; simp

theorem exchange_grows (N : StreamConnector ω α σ) (x : Exchange c σ β) (cl : HttpClient α σ) (w : ω × List (α × Bool)) :
    Grows cl (exchange (logged N) x cl w).2.1 w.2 (exchange (logged N) x cl w).2.2.2 := by
  rw [exchange_eq]
  unfold HttpClient.request
  cases x.url with
  | none => exact .refl _ _
  | some u =>
    dsimp only
    cases HttpRequestBuilder.new c (HttpUrl.tryFrom u) (if x.put then .Put else .Get) with
    | err e => exact .refl _ _
    | panic => exact .refl _ _
    | ok b =>
      dsimp only
      obtain ⟨r, cl', w', h1, h2, h3⟩ := getStream_grows N cl u w
      rw [h1]
      cases r with
      | err e => exact h2
      | panic => exact h2
      | ok as =>
        obtain ⟨a, s⟩ := as
        have h4 := h3 a s rfl
        obtain ⟨new, k1, k2, k3, k4⟩ := h2
        dsimp only
        cases b.send s with
        | error es =>
          obtain ⟨e, s''⟩ := es
          exact ⟨new, by dsimp only; rw [putBack_keys h4]; exact k1, k2, k3, k4⟩
        | ok o => exact ⟨new, by dsimp only; rw [putBack_keys h4]; exact k1, k2, k3, k4⟩

theorem history_grows (N : StreamConnector ω α σ) (xs : List (Exchange c σ β)) :
    ∀ (cl : HttpClient α σ) (w : ω × List (α × Bool)),
      Grows cl (history (logged N) xs cl w).2.1 w.2 (history (logged N) xs cl w).2.2.2 := by
  induction xs with
  | nil => intro cl w; exact .refl _ _
  | cons x xs ih => intro cl w; exact (exchange_grows N x cl w).trans (ih _ _)

/-- Full statement: there is a bound on the number of connections that a client keeps. What holds: it keeps the connections
that it ever opened, all of them and no others, one for each address, whatever was asked, whatever the callers did and
whatever became of the connections. -/
theorem C173_kept_partial (N : StreamConnector ω α σ) (xs : List (Exchange c σ β)) (w : ω) :
    kept (history (logged N) xs HttpClient.new (w, [])).2.1 = opened (history (logged N) xs HttpClient.new (w, [])).2.2.2 ∧
    (kept (history (logged N) xs HttpClient.new (w, [])).2.1).Nodup := by
  obtain ⟨new, h1, h2, h3, _⟩ := history_grows N xs HttpClient.new (w, [])
  have e1 : kept (HttpClient.new : HttpClient α σ) = [] := rfl
  have e2 : opened ([] : List (α × Bool)) = [] := rfl
  rw [e1, List.nil_append] at h1
  rw [h1]
  exact ⟨by rw [h2]; rfl, h3⟩

/-- No connection is given up: what a client keeps it still keeps after any further requests. -/
theorem C173_never_less_partial (N : StreamConnector ω α σ) (xs : List (Exchange c σ β)) (cl : HttpClient α σ)
    (w : ω × List (α × Bool)) : kept cl <+: kept (history (logged N) xs cl w).2.1 := by
  obtain ⟨new, h1, _⟩ := history_grows N xs cl w
  rw [h1]; exact List.prefix_append _ _

end

/-- A network in which every host name is an address and every connection can be made; the peers close at once. -/
def manyHosts : StreamConnector Unit Bytes (Duplex Wire Sink) where
  connect _ w := (.ok ⟨Wire.mk [], ⟨[], 0, []⟩⟩, w)
  toStreamAddr u w := (.ok (u.host.getD []), w)

/-- A GET from a host; the caller drops the request. -/
def getFrom (c : Cfg) [CaseMap] (h : Bytes) : Exchange c (Duplex Wire Sink) Unit :=
  ⟨false, some ⟨b!"http", some h, none, b!"/", none, none, [], none⟩, fun o => ((), o.dropped)⟩

section
variable [CaseMap] (c : Cfg)

theorem getFrom_keeps (h : Bytes) (cl : HttpClient Bytes (Duplex Wire Sink)) (w : Unit × List (Bytes × Bool))
    (hno : h ∉ kept cl) : kept (exchange (logged manyHosts) (getFrom c h) cl w).2.1 = kept cl ++ [h] := by
  rw [exchange_eq]
  have hs : AsciiText b!"http" := by rw [← isAscii_iff]; decide
  obtain ⟨sc, h1, _⟩ := HttpUrl.tryFrom_ok (u := ⟨b!"http", some h, none, b!"/", none, none, [], none⟩) (h := h) hs
    (.inl (by unfold PlainHttp; rw [utf8_http]; exact sameText_refl _)) rfl
  obtain ⟨b, h2, _⟩ := HttpRequestBuilder.new_ok c ⟨⟨b!"http", some h, none, b!"/", none, none, [], none⟩, sc, h⟩ .Get
  unfold HttpClient.request getFrom
  dsimp only
  rw [h1]
  simp only [Bool.false_eq_true, if_false]
  rw [h2]
  have hg : cl.getStream (logged manyHosts) ⟨b!"http", some h, none, b!"/", none, none, [], none⟩ w =
      (.ok (h, ⟨Wire.mk [], ⟨[], 0, []⟩⟩), ⟨poolSet h ⟨Wire.mk [], ⟨[], 0, []⟩⟩ cl.streams⟩, w.1, w.2 ++ [(h, true)]) := by
    unfold HttpClient.getStream
    simp only [logged, manyHosts, Option.getD_some, poolGet_none_iff.2 hno]
  have hk : kept (⟨poolSet h ⟨Wire.mk [], ⟨[], 0, []⟩⟩ cl.streams⟩ : HttpClient Bytes (Duplex Wire Sink)) = kept cl ++ [h] := by
    unfold kept; rw [keys_poolSet]; exact if_neg hno
  dsimp only
  rw [hg]
  dsimp only
  have hin : h ∈ kept (⟨poolSet h ⟨Wire.mk [], ⟨[], 0, []⟩⟩ cl.streams⟩ : HttpClient Bytes (Duplex Wire Sink)) := by
    rw [hk]; simp
  cases b.send (⟨Wire.mk [], ⟨[], 0, []⟩⟩ : Duplex Wire Sink) with
  | error es => dsimp only; rw [putBack_keys hin]; exact hk
  | ok o => dsimp only; rw [putBack_keys hin]; exact hk

theorem getFrom_all (hs : List Bytes) : ∀ (cl : HttpClient Bytes (Duplex Wire Sink)) (w : Unit × List (Bytes × Bool)),
    hs.Nodup → (∀ h ∈ hs, h ∉ kept cl) →
    kept (history (logged manyHosts) (hs.map (getFrom c)) cl w).2.1 = kept cl ++ hs := by
  induction hs with
  | nil => intro cl w _ _; simp [history]
  | cons h hs ih =>
    intro cl w hn hno
    rw [List.nodup_cons] at hn
    have h1 := getFrom_keeps c h cl w (hno h (by simp))
    have h2 := ih (exchange (logged manyHosts) (getFrom c h) cl w).2.1 (exchange (logged manyHosts) (getFrom c h) cl w).2.2 hn.2
      (by
        intro a ha hk
        rw [h1, List.mem_append, List.mem_singleton] at hk
        rcases hk with hk | hk
        · exact hno a (by simp [ha]) hk
        · exact hn.1 (hk ▸ ha))
    rw [h1] at h2
    rw [List.map_cons]
    exact h2.trans (by simp)

/-- There is no bound on the connections that a client keeps: with requests to enough hosts there are more than any number of
them, all of them closed by the peer already. -/
theorem C173_false (bound : Nat) : ∃ xs : List (Exchange c (Duplex Wire Sink) Unit),
    bound < (kept (history (logged manyHosts) xs HttpClient.new ((), [])).2.1).length := by
  refine ⟨((List.range (bound + 1)).map fun k => List.replicate k 97).map (getFrom c), ?_⟩
  have hn : ((List.range (bound + 1)).map fun k => List.replicate k (97 : UInt8)).Nodup := by
    unfold List.Nodup
    rw [List.pairwise_map]
    refine List.Pairwise.imp ?_ List.nodup_range
    intro a b hab he
    exact hab (by simpa using congrArg List.length he)
  have h := getFrom_all c _ HttpClient.new ((), []) hn (by intro h _; simp [kept, HttpClient.new])
  rw [h]
  simp [kept, HttpClient.new]

end

/-- `C173_kept_partial`: three hosts, one of them twice. -/
example : let _ := asciiCase
    kept (history (logged manyHosts) ([b!"a", b!"b", b!"a", b!"c"].map (getFrom ⟨true⟩)) HttpClient.new ((), [])).2.1 =
      [b!"a", b!"b", b!"c"] := by decide +kernel

/-- `C173_kept_partial`: an attempt that fails leaves nothing. -/
example : let _ := asciiCase
    let x (p : Nat) : Exchange ⟨false⟩ (Duplex Wire Sink) Unit :=
      ⟨false, some ⟨b!"http", some b!"h", some p, b!"/p", none, none, [], none⟩, fun o => ((), o.dropped)⟩
    kept (history (logged flaky) [x 1, x 1, x 2, x 1, x 1] HttpClient.new ([], [])).2.1 = [1] := by decide +kernel

/-- `C173_never_less_partial`: a client that keeps a connection. -/
example : let _ := asciiCase
    let cl : HttpClient Bytes (Duplex Wire Sink) := ⟨[(b!"z", ⟨Wire.mk [], ⟨[], 0, []⟩⟩)]⟩
    kept (history (logged manyHosts) ([b!"a"].map (getFrom ⟨true⟩)) cl ((), [])).2.1 = [b!"z", b!"a"] := by decide +kernel

end HttpIo
