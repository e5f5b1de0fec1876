import Verif.Spec.Opening
import Verif.Props.Connect
import Verif.Props.Client

/-! C80: connections that cannot be opened. -/

namespace HttpIo
open Spec

section
variable [CaseMap] {ω α σ τ : Type}

theorem names_unique {u : Url} {h h' : Bytes} {p p' : Nat} (ha : AsciiText u.scheme) (h1 : Names u h p) (h2 : Names u h' p') :
    h = h' ∧ p = p' := by
  obtain ⟨a1, a2, a3⟩ := h1
  obtain ⟨b1, b2, b3⟩ := h2
  refine ⟨by rw [a1] at b1; simpa using b1, ?_⟩
  cases hp : u.port with
  | some q => rw [a2 q hp, b2 q hp]
  | none =>
    have hplain : PlainHttp u ↔ CaseMap.lower u.scheme = b!"http" := by
      unfold PlainHttp; rw [utf8_http]; exact sameText_lower ha _ (by decide) (by decide)
    have hsec : SecureHttp u ↔ CaseMap.lower u.scheme = b!"https" := by
      unfold SecureHttp; rw [utf8_https]; exact sameText_lower ha _ (by decide) (by decide)
    rcases a3 hp with ⟨x, rfl⟩ | ⟨x, rfl⟩ <;> rcases b3 hp with ⟨y, rfl⟩ | ⟨y, rfl⟩
    · rfl
    · rw [hplain] at x; rw [hsec, x] at y; exact absurd y (by decide)
    · rw [hsec] at x; rw [hplain, x] at y; exact absurd y (by decide)
    · rfl

/-- Resolving a URL, in terms of the lookup. -/
theorem toStreamAddr_eq (net : Net ω α σ τ) {u : Url} {host : Bytes} (hl : LowerScheme u) (hs : PlainHttp u ∨ SecureHttp u)
    (hh : u.host = some host) (w : ω) :
    ∃ port sec, Names u host port ∧ (sec = true ↔ SecureHttp u) ∧ net.toStreamAddr u w =
      match net.lookup host port w with
      | (.error _, w) => (.err (.io .addrNotAvailable), w)
      | (.ok [], w) => (.err (.io .addrNotAvailable), w)
      | (.ok (addr :: _), w) => (.ok ⟨addr, host, sec⟩, w) := by
  have ha : AsciiText u.scheme := fun b hb => (hl b hb).1
  obtain ⟨s, h1, _⟩ := HttpUrl.tryFrom_ok ha hs hh
  obtain ⟨p, h2, h3, h4, h5, h6, h7⟩ := C40_port u _ hl h1
  refine ⟨p, s = .Https, ⟨hh, h3, h4⟩, by simpa using h7, ?_⟩
  unfold Net.toStreamAddr
  rw [h1]
  dsimp only
  rw [h2]
  rfl

section
variable {c : Cfg} [DecidableEq α] [LawfulReader σ] [LawfulReader τ] [LawfulWriter σ] [LawfulWriter τ] {ρ : Type} [LawfulReader ρ]

/-! ### C80 -/

omit [DecidableEq α] in
/-- The two steps of opening a connection fail exactly as `OpenFails` says. -/
theorem openFails_iff (net : Net ω α σ τ) (ssl : Bool) (u : Url) (hl : LowerScheme u) (hs : PlainHttp u ∨ SecureHttp u)
    (w w' : ω) (e : Err) :
    OpenFails net ssl u w e w' ↔ u.host ≠ none ∧ (net.toStreamAddr u w = (.err e, w') ∨
      ∃ id w1, net.toStreamAddr u w = (.ok id, w1) ∧ net.streamConnect ssl id w1 = (.err e, w')) := by
  have ha : AsciiText u.scheme := fun b hb => (hl b hb).1
  constructor
  · intro h
    cases h with
    | lookup hn hk =>
      obtain ⟨port, sec, h1, _, h3⟩ := toStreamAddr_eq net hl hs hn.1 w
      obtain ⟨_, rfl⟩ := names_unique ha hn h1
      rw [hk] at h3
      exact ⟨by rw [hn.1]; simp, .inl h3⟩
    | noAddress hn hk =>
      obtain ⟨port, sec, h1, _, h3⟩ := toStreamAddr_eq net hl hs hn.1 w
      obtain ⟨_, rfl⟩ := names_unique ha hn h1
      rw [hk] at h3
      exact ⟨by rw [hn.1]; simp, .inl h3⟩
    | connect hn hk hc =>
      obtain ⟨port, sec, h1, _, h3⟩ := toStreamAddr_eq net hl hs hn.1 w
      obtain ⟨_, rfl⟩ := names_unique ha hn h1
      rw [hk] at h3
      refine ⟨by rw [hn.1]; simp, .inr ⟨_, _, h3, ?_⟩⟩
      unfold Net.streamConnect
      dsimp only
      rw [hc]
    | tls hn hssl hsec hk hc ht =>
      obtain ⟨port, sec, h1, h2, h3⟩ := toStreamAddr_eq net hl hs hn.1 w
      obtain ⟨_, rfl⟩ := names_unique ha hn h1
      rw [hk] at h3
      refine ⟨by rw [hn.1]; simp, .inr ⟨_, _, h3, ?_⟩⟩
      unfold Net.streamConnect
      dsimp only
      rw [hc]
      dsimp only
      rw [if_pos hssl, if_pos (h2.2 hsec), ht]
  · rintro ⟨hh, h⟩
    obtain ⟨host, hh⟩ := Option.ne_none_iff_exists'.1 hh
    obtain ⟨port, sec, h1, h2, h3⟩ := toStreamAddr_eq net hl hs hh w
    rcases hk : net.lookup host port w with ⟨e0 | _ | ⟨a, as⟩, w1⟩ <;> rw [hk] at h3 <;> dsimp only at h3
    · rcases h with h | ⟨id, w2, h, _⟩ <;> rw [h3] at h <;> simp only [Prod.mk.injEq, Res.err.injEq, reduceCtorEq, false_and] at h
      obtain ⟨rfl, rfl⟩ := h
      exact .lookup h1 hk
    · rcases h with h | ⟨id, w2, h, _⟩ <;> rw [h3] at h <;> simp only [Prod.mk.injEq, Res.err.injEq, reduceCtorEq, false_and] at h
      obtain ⟨rfl, rfl⟩ := h
      exact .noAddress h1 hk
    · rcases h with h | ⟨id, w2, h, hc⟩ <;> rw [h3] at h <;> simp only [Prod.mk.injEq, Res.ok.injEq, reduceCtorEq, false_and] at h
      obtain ⟨rfl, rfl⟩ := h
      unfold Net.streamConnect at hc
      dsimp only at hc
      rcases hn : net.connect a w1 with ⟨e1 | s, w3⟩ <;> rw [hn] at hc <;> dsimp only at hc
      · simp only [Prod.mk.injEq, Res.err.injEq] at hc
        obtain ⟨rfl, rfl⟩ := hc
        exact .connect h1 hk hn
      · split at hc
        · split at hc
          · rename_i hssl hsec
            rcases ht : net.tls host s w3 with ⟨t | e1 | _, w4⟩ <;> rw [ht] at hc <;>
              simp only [Prod.mk.injEq, Res.err.injEq, reduceCtorEq, false_and] at hc
            obtain ⟨rfl, rfl⟩ := hc
            exact .tls h1 hssl (h2.1 hsec) hk hn ht
          · simp at hc
        · simp at hc

/-- A URL that does not parse, or that is neither http nor https, is a parse error in every entry point; nothing is
looked up or opened, and the client keeps the connections it has. -/
theorem C80_bad_url {σ' : Type} [LawfulReader σ'] [Writer σ'] (N : StreamConnector ω α σ') (url : Option Url)
    (hu : ∀ u, url = some u → AsciiText u.scheme ∧ ¬ (PlainHttp u ∨ SecureHttp u)) (body : ρ) (cl : HttpClient α σ') (w : ω) :
    clientGet c N url w = (.err .parse, w) ∧ clientPut c N url body w = (.err .parse, w) ∧
    cl.get c N url w = (.err .parse, cl, w) ∧ cl.put c N url w = (.err .parse, cl, w) := by
  cases url with
  | none => exact ⟨rfl, rfl, rfl, rfl⟩
  | some u =>
    obtain ⟨ha, hs⟩ := hu u rfl
    have hb : ∀ m, HttpRequestBuilder.new c (HttpUrl.tryFrom u) m = .err .parse := fun m => (C40_builder c u m ha).2.2 hs
    refine ⟨?_, ?_, ?_, ?_⟩
    · unfold clientGet HttpRequestBuilder.get; dsimp only; rw [hb]
    · unfold clientPut HttpRequestBuilder.put; dsimp only; rw [hb]
    · unfold HttpClient.get HttpClient.request; dsimp only; rw [hb]
    · unfold HttpClient.put HttpClient.request; dsimp only; rw [hb]

/-- What fails while a connection is opened is what the caller is told: a lookup without result is `AddrNotAvailable`,
everything else the error of the step that failed. The world is the one after that step, so nothing is tried after it;
and the pooled client keeps the connections it has. -/
theorem C80_reported (net : Net ω α σ τ) (ssl : Bool) (u : Url) (hl : LowerScheme u) (hs : PlainHttp u ∨ SecureHttp u)
    (body : ρ) (w w' : ω) (e : Err) (hf : OpenFails net ssl u w e w') :
    clientGet c (net.connector ssl) (some u) w = (.err e, w') ∧
    clientPut c (net.connector ssl) (some u) body w = (.err e, w') ∧
    ∀ cl : HttpClient (StreamId α) (StreamEither σ τ),
      (∀ id w1, net.toStreamAddr u w = (.ok id, w1) → poolGet id cl.streams = none) →
      cl.get c (net.connector ssl) (some u) w = (.err e, cl, w') ∧ cl.put c (net.connector ssl) (some u) w = (.err e, cl, w') := by
  have ha : AsciiText u.scheme := fun b hb => (hl b hb).1
  obtain ⟨hh, h⟩ := (openFails_iff net ssl u hl hs w w' e).1 hf
  have hb : ∀ m, ∃ b, HttpRequestBuilder.new c (HttpUrl.tryFrom u) m = .ok b := fun m =>
    (C40_builder c u m ha).1.2 ⟨hs, Option.ne_none_iff_exists'.1 hh⟩
  have hsend : ∀ {ρ' : Type} [LawfulReader ρ'] (b : HttpRequestBuilder c) (body : ρ'),
      sendRequest c (net.connector ssl) b u body w = (.err e, w') := by
    intro ρ' _ b body
    unfold sendRequest Net.connector
    dsimp only
    rcases h with h | ⟨id, w1, h, hc⟩
    · rw [h]
    · rw [h]; dsimp only; rw [hc]
  obtain ⟨b1, hb1⟩ := hb .Get
  obtain ⟨b2, hb2⟩ := hb .Put
  refine ⟨?_, ?_, fun cl hp => ?_⟩
  · unfold clientGet HttpRequestBuilder.get; dsimp only; rw [hb1]; exact hsend _ _
  · unfold clientPut HttpRequestBuilder.put; dsimp only; rw [hb2]; exact hsend _ _
  · have hg : cl.getStream (net.connector ssl) u w = (.err e, cl, w') := by
      unfold HttpClient.getStream Net.connector
      dsimp only
      rcases h with h | ⟨id, w1, h, hc⟩
      · rw [h]
      · rw [h]; dsimp only; rw [hp id w1 h]; dsimp only; rw [hc]
    refine ⟨?_, ?_⟩
    · unfold HttpClient.get HttpClient.request; dsimp only; rw [hb1]; dsimp only; rw [hg]
    · unfold HttpClient.put HttpClient.request; dsimp only; rw [hb2]; dsimp only; rw [hg]

theorem sendRequest_opening (net : Net ω α σ τ) (ssl : Bool) (u : Url) (hl : LowerScheme u) (hs : PlainHttp u ∨ SecureHttp u)
    (hh : u.host ≠ none) (b : HttpRequestBuilder c) (body : ρ) (w w' : ω) (e : Err)
    (h : sendRequest c (net.connector ssl) b u body w = (.err e, w')) :
    OpenFails net ssl u w e w' ∨
    ∃ id w1 st, net.toStreamAddr u w = (.ok id, w1) ∧ net.streamConnect ssl id w1 = (.ok st, w') := by
  unfold sendRequest Net.connector at h
  dsimp only at h
  rcases hta : net.toStreamAddr u w with ⟨id | e1 | _, w1⟩ <;> rw [hta] at h <;> dsimp only at h
  · rcases hc : net.streamConnect ssl id w1 with ⟨st | e1 | _, w2⟩ <;> rw [hc] at h <;> dsimp only at h
    · refine .inr ⟨id, w1, st, rfl, ?_⟩
      suffices w2 = w' by rw [← this]; exact hc
      split at h
      · simp only [Prod.mk.injEq] at h; exact h.2
      · split at h
        · simp only [Prod.mk.injEq] at h; exact h.2
        · split at h
          · simp only [Prod.mk.injEq] at h; exact h.2
          · simp at h
          · split at h
            · simp only [Prod.mk.injEq] at h; exact h.2
            · simp at h
    · simp only [Prod.mk.injEq, Res.err.injEq] at h
      obtain ⟨rfl, rfl⟩ := h
      exact .inl ((openFails_iff net ssl u hl hs w _ _).2 ⟨hh, .inr ⟨id, w1, hta, hc⟩⟩)
    · simp at h
  · simp only [Prod.mk.injEq, Res.err.injEq] at h
    obtain ⟨rfl, rfl⟩ := h
    exact .inl ((openFails_iff net ssl u hl hs w _ _).2 ⟨hh, .inl hta⟩)
  · simp at h

/-- And conversely: if a one-shot GET or PUT fails, then because of the URL, or while the connection was opened, or after
a connection was given. -/
theorem C80_only (net : Net ω α σ τ) (ssl : Bool) (u : Url) (hl : LowerScheme u) (hh : u.host ≠ none) (body : ρ) (w w' : ω)
    (e : Err) (h : clientGet c (net.connector ssl) (some u) w = (.err e, w') ∨
      clientPut c (net.connector ssl) (some u) body w = (.err e, w')) :
    (¬ (PlainHttp u ∨ SecureHttp u) ∧ e = .parse ∧ w' = w) ∨ OpenFails net ssl u w e w' ∨
    ∃ id w1 st, net.toStreamAddr u w = (.ok id, w1) ∧ net.streamConnect ssl id w1 = (.ok st, w') := by
  have ha : AsciiText u.scheme := fun b hb => (hl b hb).1
  by_cases hs : PlainHttp u ∨ SecureHttp u
  · refine .inr ?_
    rcases h with h | h
    · obtain ⟨b, hb⟩ := (C40_builder c u .Get ha).1.2 ⟨hs, Option.ne_none_iff_exists'.1 hh⟩
      unfold clientGet HttpRequestBuilder.get at h
      dsimp only at h
      rw [hb] at h
      exact sendRequest_opening net ssl u hl hs hh b _ w w' e h
    · obtain ⟨b, hb⟩ := (C40_builder c u .Put ha).1.2 ⟨hs, Option.ne_none_iff_exists'.1 hh⟩
      unfold clientPut HttpRequestBuilder.put at h
      dsimp only at h
      rw [hb] at h
      exact sendRequest_opening net ssl u hl hs hh b _ w w' e h
  · have := C80_bad_url (c := c) (net.connector ssl) (some u) (fun v hv => by cases hv; exact ⟨ha, hs⟩) body HttpClient.new w
    rw [this.1, this.2.1] at h
    simp only [Prod.mk.injEq, Res.err.injEq, or_self] at h
    exact .inl ⟨hs, h.1.symm, h.2.symm⟩

end
end

/-- A network in which lookups fail for port 1 and find nothing for port 2, connections are refused for port 3 and TLS
handshakes fail for port 4. The world counts the operations. -/
def brokenNet : Net Nat Nat (Duplex Wire Sink) (Duplex Wire Sink) :=
  ⟨fun _ p w => if p = 1 then (.error (.io (.other 7)), w + 1) else if p = 2 then (.ok [], w + 1) else (.ok [p, p + 100], w + 1),
   fun a w => if a = 3 then (.error (.io (.other 3)), w + 1) else (.ok ⟨⟨[]⟩, ⟨[], 0, []⟩⟩, w + 1),
   fun _ _ w => (.err .other, w + 1)⟩

/-- Witness: every way of `OpenFails`, and what `client::get` makes of it. -/
example : let _ := asciiCase
    let u : Nat → Url := fun p => ⟨b!"https", some b!"h", some p, b!"/", none, none, [], none⟩
    (∀ p, LowerScheme (u p) ∧ SecureHttp (u p)) ∧
    OpenFails brokenNet true (u 1) 0 (.io .addrNotAvailable) 1 ∧ OpenFails brokenNet true (u 2) 0 (.io .addrNotAvailable) 1 ∧
    OpenFails brokenNet true (u 3) 0 (.io (.other 3)) 2 ∧ OpenFails brokenNet true (u 4) 0 .other 3 ∧
    clientGet ⟨true⟩ (brokenNet.connector true) (some (u 4)) 0 = (.err .other, 3) := by
  intro _ u
  have hs : ∀ p, LowerScheme (u p) ∧ SecureHttp (u p) := fun p =>
    ⟨show LowerScheme (u 0) by unfold LowerScheme; decide, by unfold SecureHttp; rw [utf8_https]; exact sameText_refl _⟩
  have hn : ∀ p, Names (u p) b!"h" p := fun p => ⟨rfl, by simp [u], by simp [u]⟩
  have h4 : OpenFails brokenNet true (u 4) 0 .other 3 := .tls (hn 4) rfl (hs 4).2 rfl rfl rfl
  exact ⟨hs, .lookup (hn 1) rfl, .noAddress (hn 2) rfl, .connect (hn 3) rfl rfl, h4,
    (C80_reported (c := ⟨true⟩) brokenNet true (u 4) (hs 4).1 (.inr (hs 4).2) EmptyReader.mk 0 3 .other h4).1⟩

/-- Witness for `C80_bad_url`. -/
example : let _ := asciiCase
    AsciiText b!"ftp" ∧ ¬ SameText b!"ftp" (utf8 "http") ∧ ¬ SameText b!"ftp" (utf8 "https") := by
  intro _
  have ha : AsciiText b!"ftp" := by rw [← isAscii_iff]; decide
  refine ⟨ha, ?_, ?_⟩
  · rw [utf8_http, sameText_lower ha _ (by decide) (by decide)]; decide +kernel
  · rw [utf8_https, sameText_lower ha _ (by decide) (by decide)]; decide +kernel

end HttpIo
