import Verif.Props.Depends
import Verif.Props.Listing
import Verif.Props.Accept
import Verif.Spec.Repeated

/-! C164: requests to the file servers that are safe, repeated, or in another order. -/

namespace HttpIo
open Spec

/-- Writing a file where there is no directory and no link makes no new ways. -/
theorem Spec.Comes.unset {fs : Fs} {p : List Bytes} (hs : Storable fs p) {content : Bytes} {n : Nat} {cur cs q rest : List Bytes}
    (h : Comes (fs.set p content) n cur cs q rest) : Comes fs n cur cs q rest := by
  obtain ⟨hp, hlk⟩ := hs.ne
  have hl : ∀ q text, fs q = some (.link text) ↔ fs.set p content q = some (.link text) := by
    intro q text
    unfold Fs.set
    split
    · rename_i h; subst h; simp [hlk text]
    · rfl
  have hd : ∀ cur, fs.set p content cur = some .dir → fs cur = some .dir := by
    intro cur hc
    unfold Fs.set at hc
    split at hc
    · simp at hc
    · exact hc
  induction h with
  | here => exact .here
  | stay h1 h2 _ ih => exact .stay (hd _ h1) h2 ih
  | up h1 _ ih => exact .up (hd _ h1) ih
  | down h1 h2 h3 _ ih => exact .down (hd _ h1) h2 (fun text ht => h3 text ((hl _ _).1 ht)) ih
  | relative h1 h2 h3 h4 h5 _ ih => exact .relative (hd _ h1) h2 ((hl _ _).2 h3) h4 h5 ih
  | absolute h1 h2 h3 h4 h5 _ ih => exact .absolute (hd _ h1) h2 ((hl _ _).2 h3) h4 h5 ih

theorem walk_set {fs : Fs} {p : List Bytes} (hs : Storable fs p) (content : Bytes) (cur cs q : List Bytes) :
    (fs.set p content).walk cur cs = .ok q ↔ fs.walk cur cs = .ok q := by
  rw [walk_iff, walk_iff]
  exact ⟨fun ⟨n, hn, h⟩ => ⟨n, hn, h.unset hs⟩, fun ⟨n, hn, h⟩ => ⟨n, hn, h.set hs⟩⟩

theorem resolve_set {fs : Fs} {p : List Bytes} (hs : Storable fs p) (content path : Bytes) (q : List Bytes) :
    (fs.set p content).resolve path = .ok q ↔ fs.resolve path = .ok q := by
  unfold Fs.resolve
  split
  · simp
  · split
    · simp
    · exact walk_set hs content _ _ _

section
variable [CaseMap] {c : Cfg} {η σ ρ ε : Type} [LawfulReader σ] [ZeroReader σ] [LawfulWriter σ] [LawfulReader ρ] [ZeroReader ρ]

/-- As `same_answer`, from two states. -/
theorem same_answers {P : σ → Prop} (hra : ReadsApart σ) (hrel : Reliable c P) (hkept : ∀ s n, P s → P (read s n).2)
    (h : Handler c η σ ρ ε) (ho : OnlyReads h) (errText : Err → Bytes) (s u : σ) (self self' : η) (hs : P s) (hu : P u)
    (h1 : (h.serveOneInner errText s self).1 = (h.serveOneInner errText u self').1)
    (h2 : (h.serveOneInner errText s self).2.2 = (h.serveOneInner errText u self').2.2) : ∃ d e x, (h.serveOne errText (.ok s) self).2.1 = some d ∧ (h.serveOne errText (.ok u) self').2.1 = some e ∧
    (h.serveOne errText (.ok s) self).1 = (h.serveOne errText (.ok u) self').1 ∧
    (h.serveOne errText (.ok s) self).2.2 = (h.serveOne errText (.ok u) self').2.2 ∧
    sent d = sent s ++ x ∧ sent e = sent u ++ x := by
  have ps := inner_sent hra h ho errText s self
  have pu := inner_sent hra h ho errText u self'
  have qs := inner_kept ⟨hkept⟩ h ho errText self hs
  have qu := inner_kept ⟨hkept⟩ h ho errText self' hu
  unfold Handler.serveOne
  dsimp only
  rcases hx : h.serveOneInner errText s self with ⟨x, s1, st⟩
  rcases hy : h.serveOneInner errText u self' with ⟨y, u1, st'⟩
  rw [hx] at h1 h2 ps qs
  rw [hy] at h1 h2 pu qu
  dsimp only at h1 h2 ps pu qs qu
  subst h1 h2
  cases x with
  | panic => exact ⟨s1, u1, [], rfl, rfl, rfl, rfl, by rw [ps, List.append_nil], by rw [pu, List.append_nil]⟩
  | ok r =>
    obtain ⟨g1, g0, z, g2, g3⟩ := respond_by_trace hrel r qs qu
    rw [ps] at g2
    rw [pu] at g3
    dsimp only
    rcases hc : respond c r s1 with ⟨a | a, b, s2⟩ <;> rcases hc' : respond c r u1 with ⟨a' | a', b', u2⟩ <;>
      rw [hc] at g0 g1 g2 <;> rw [hc'] at g0 g1 g3 <;> simp only [reduceCtorEq, Except.error.injEq] at g1 <;> dsimp only at g0 g2 g3 ⊢ <;> subst g0
    · exact ⟨s2, u2, z, rfl, rfl, by rw [g1], rfl, g2, g3⟩
    · exact ⟨s2, u2, z, rfl, rfl, rfl, rfl, g2, g3⟩
  | err r =>
    obtain ⟨g1, g0, z, g2, g3⟩ := respond_by_trace hrel r qs qu
    rw [ps] at g2
    rw [pu] at g3
    dsimp only
    rcases hc : respond c r s1 with ⟨a | a, b, s2⟩ <;> rcases hc' : respond c r u1 with ⟨a' | a', b', u2⟩ <;>
      rw [hc] at g0 g1 g2 <;> rw [hc'] at g0 g1 g3 <;> simp only [reduceCtorEq, Except.error.injEq] at g1 <;> dsimp only at g0 g2 g3 ⊢ <;> subst g0
    · exact ⟨s2, u2, z, rfl, rfl, by rw [g1], rfl, g2, g3⟩
    · exact ⟨s2, u2, z, rfl, rfl, rfl, rfl, g2, g3⟩

end

section
variable [CaseMap] {c : Cfg} {σ : Type} [LawfulReader σ] [ZeroReader σ]

omit [CaseMap] in
/-- What an upload leaves: nothing has changed, or there is a file at the place where the path leads, with a content that
depends only on the body. -/
theorem put_leaves (root uri : Bytes) (body : HttpBody c (BufReader c σ)) : ∃ content : Bytes, ∀ fs : Fs,
    ((∀ p, fs.resolve (joinPath root (trimSlashes uri)) = .ok p → ¬ Storable fs p) → (FileHandler.put root uri body fs).2.2 = fs) ∧
    ∀ p, fs.resolve (joinPath root (trimSlashes uri)) = .ok p → Storable fs p →
      (FileHandler.put root uri body fs).2.2 = fs.set p content := by
  refine ⟨sent (copy c body (Sink.mk [] 0 []) 0).2.2, fun fs => ⟨fun h => ?_, fun p hp hs => ?_⟩⟩
  · unfold FileHandler.put FileHandler.putOn
    rcases hres : fs.resolve (joinPath root (trimSlashes uri)) with e | p
    · unfold Fs.create; rw [hres]
    · rw [create_other hres (h p hres)]
  · unfold FileHandler.put FileHandler.putOn
    rw [create_storable hp hs]
    dsimp only
    rcases copy c body (Sink.mk [] 0 []) 0 with ⟨_ | _, b, f⟩ <;> dsimp only <;> rw [Fs.set_set]

omit [CaseMap] in
/-- What an upload is answered, when it is made again. -/
theorem put_again (root uri : Bytes) (body : HttpBody c (BufReader c σ)) (fs : Fs) :
    (FileHandler.put root uri body (FileHandler.put root uri body fs).2.2).1 = (FileHandler.put root uri body fs).1 ∧
    (FileHandler.put root uri body (FileHandler.put root uri body fs).2.2).2.2 = (FileHandler.put root uri body fs).2.2 := by
  obtain ⟨content, h⟩ := put_leaves root uri body
  by_cases hx : ∃ p, fs.resolve (joinPath root (trimSlashes uri)) = .ok p ∧ Storable fs p
  · obtain ⟨p, hp, hs⟩ := hx
    rw [(h fs).2 p hp hs]
    have hp' := (resolve_set hs content _ p).2 hp
    have hs' : Storable (fs.set p content) p := .inr ⟨content, by simp [Fs.set]⟩
    refine ⟨?_, by rw [(h _).2 p hp' hs', Fs.set_set]⟩
    unfold FileHandler.put FileHandler.putOn
    rw [create_storable hp' hs', create_storable hp hs]
    dsimp only
    rcases copy c body (Sink.mk [] 0 []) 0 with ⟨_ | _, b, f⟩ <;> rfl
  · have e := (h fs).1 fun p hp hs => hx ⟨p, hp, hs⟩
    rw [e]
    exact ⟨rfl, e⟩

theorem getAmid_state (readDir : Fs → List Bytes → List Bytes) (root uri : Bytes) (fs : Fs) :
    (ListingHandler.get c readDir root uri fs).2 = fs := by
  unfold ListingHandler.get ListingHandler.getAmid
  dsimp only
  repeat' (first | rfl | split)

/-- What both servers do to the files. -/
theorem handled_files {h : Handler c Fs σ Wire Err} {root : Bytes} (hh : IsFileServer h root) (m : HttpMethod) (uri : Bytes)
    (body : HttpBody c (BufReader c σ)) (fs : Fs) :
    (m ≠ .Put → (handled h m uri body fs).2.2 = fs) ∧
    (m = .Put → (handled h m uri body fs).1 = (FileHandler.put root uri body fs).1 ∧
      (handled h m uri body fs).2.2 = (FileHandler.put root uri body fs).2.2) := by
  refine ⟨fun hm => ?_, fun hm => ?_⟩
  · rcases hh with ⟨e, rfl⟩ | ⟨rd, e, rfl⟩
    · cases m with
      | Put => exact absurd rfl hm
      | Get =>
        show (FileHandler.get c root uri fs).2 = fs
        unfold FileHandler.get
        split <;> rfl
      | _ => rfl
    · cases m with
      | Put => exact absurd rfl hm
      | Get => exact getAmid_state rd root uri fs
      | _ => rfl
  · subst hm
    rcases hh with ⟨e, rfl⟩ | ⟨rd, e, rfl⟩ <;> exact ⟨rfl, rfl⟩

theorem fileServer_byContent {h : Handler c Fs σ Wire Err} {root : Bytes} (hh : IsFileServer h root) : ByContent h := by
  rcases hh with ⟨e, rfl⟩ | ⟨rd, e, rfl⟩
  · exact fileHandler_byContent root e
  · exact listingHandler_byContent rd root e

theorem fileServer_release {h : Handler c Fs σ Wire Err} {root : Bytes} (hh : IsFileServer h root) : ∀ b st, h.release b st = st := by
  rcases hh with ⟨e, rfl⟩ | ⟨rd, e, rfl⟩ <;> exact fun _ _ => rfl

/-- What a connection does to the files, whatever they are. -/
theorem files_state {h : Handler c Fs σ Wire Err} {root : Bytes} (hh : IsFileServer h root) (errText : Err → Bytes) (s : σ) :
    (∀ fs, (h.serveOneInner errText s fs).2.2 = fs) ∨
    ∃ r s1, HttpRequest.deserialize c (BufReader.new c s) = (.ok r, s1) ∧ r.method = .Put ∧
      ∀ fs, (h.serveOneInner errText s fs).2.2 = (FileHandler.put root r.uri r.body fs).2.2 := by
  rcases inner_cases h errText s (fun _ => none) with ⟨e, s1, hp⟩ | ⟨s1, hp⟩ | ⟨r, s1, hp, hr⟩ | ⟨r, s1, hp, hr⟩
  · exact .inl fun fs => by rw [serveOneInner_err _ errText fs hp]
  · exact .inl fun fs => by rw [serveOneInner_panic _ errText fs hp]
  · by_cases hm : r.method = .Put
    · refine .inr ⟨r, s1, hp, hm, fun fs => ?_⟩
      rw [serveOneInner_handled _ errText fs hp hr]
      exact ((handled_files hh r.method r.uri r.body fs).2 hm).2
    · refine .inl fun fs => ?_
      rw [serveOneInner_handled _ errText fs hp hr]
      exact (handled_files hh r.method r.uri r.body fs).1 hm
  · exact .inl fun fs => by rw [serveOneInner_refused _ errText fs hp hr]

variable [LawfulWriter σ]

/-- Safe methods are safe (RFC 7231, 4.2.1): if what comes on a connection is not a PUT, be it another request or no request
at all, the server leaves all files, directories and links as they are. -/
theorem C164_safe {h : Handler c Fs σ Wire Err} {root : Bytes} (hh : IsFileServer h root) (errText : Err → Bytes) (s : σ) (fs : Fs)
    (hm : ∀ r s1, HttpRequest.deserialize c (BufReader.new c s) = (.ok r, s1) → r.method ≠ .Put) :
    (h.serveOne errText (.ok s) fs).2.2 = fs := by
  rw [within_state (fileServer_release hh)]
  rcases files_state hh errText s with h1 | ⟨r, s1, hp, hm', _⟩
  · exact h1 fs
  · exact absurd hm' (hm r s1 hp)

/-- A PUT changes no more than one place, and only where it leads to, and there was no directory and is a file then. -/
theorem C164_one {h : Handler c Fs σ Wire Err} {root : Bytes} (hh : IsFileServer h root) (errText : Err → Bytes) (s : σ) (fs : Fs)
    {R : List Bytes} (hR : RootAt fs root R) (q : List Bytes) (hq : (h.serveOne errText (.ok s) fs).2.2 q ≠ fs q) :
    UploadsTo c fs R s q ∧ Storable fs q ∧ (∃ content, (h.serveOne errText (.ok s) fs).2.2 q = some (.file content)) ∧
    ∀ q', q' ≠ q → (h.serveOne errText (.ok s) fs).2.2 q' = fs q' := by
  rw [within_state (fileServer_release hh)] at hq ⊢
  rcases files_state hh errText s with h1 | ⟨r, s1, hp, hm, h1⟩
  · exact absurd (by rw [h1]) hq
  · obtain ⟨content, h2⟩ := put_leaves root r.uri r.body
    rw [h1] at hq ⊢
    by_cases hx : ∃ p, fs.resolve (joinPath root (trimSlashes r.uri)) = .ok p ∧ Storable fs p
    · obtain ⟨p, hres, hs⟩ := hx
      rw [(h2 fs).2 p hres hs] at hq ⊢
      have hqp : q = p := by
        unfold Fs.set at hq
        split at hq
        · assumption
        · exact absurd rfl hq
      subst hqp
      obtain ⟨cs, ht⟩ := target_total r.uri
      rw [resolve_join hR ht] at hres
      split at hres
      · simp at hres
      · refine ⟨⟨r, s1, cs, hp, hm, ht, walk_iff.1 hres⟩, hs, ⟨content, by simp [Fs.set]⟩, fun q' hq' => by simp [Fs.set, hq']⟩
    · exact absurd (by rw [(h2 fs).1 fun p hp hs => hx ⟨p, hp, hs⟩]) hq

/-- Every request is idempotent (RFC 7231, 4.2.2): if on a second connection comes what came on the first, whatever that is,
whole or broken off, and however it is split into reads, then the server gives the same answer and the files stay as the first
has left them. -/
theorem C164_again {P : σ → Prop} (hra : ReadsApart σ) (hrel : Reliable c P) (hkept : ∀ s n, P s → P (read s n).2)
    {h : Handler c Fs σ Wire Err} {root : Bytes} (hh : IsFileServer h root) (errText : Err → Bytes) (s u : σ) (fs : Fs)
    (hs : P s) (hu : P u) (ht : trace s = trace u) :
    ∃ d e x fs', h.serveOne errText (.ok s) fs = ((h.serveOne errText (.ok s) fs).1, some d, fs') ∧
      h.serveOne errText (.ok u) fs' = ((h.serveOne errText (.ok s) fs).1, some e, fs') ∧
      sent d = sent s ++ x ∧ sent e = sent u ++ x := by
  have ho : OnlyReads h := by
    rcases hh with ⟨e, rfl⟩ | ⟨rd, e, rfl⟩
    · exact fileHandler_onlyReads root e
    · exact listingHandler_onlyReads rd root e
  have key : (h.serveOneInner errText s (h.serveOneInner errText s fs).2.2).1 = (h.serveOneInner errText s fs).1 ∧
      (h.serveOneInner errText s (h.serveOneInner errText s fs).2.2).2.2 = (h.serveOneInner errText s fs).2.2 := by
    by_cases hx : (h.serveOneInner errText s fs).2.2 = fs
    · rw [hx]; exact ⟨rfl, hx⟩
    rcases inner_cases h errText s fs with ⟨e, s1, hp⟩ | ⟨s1, hp⟩ | ⟨r, s1, hp, hr⟩ | ⟨r, s1, hp, hr⟩
    · exact absurd (by rw [serveOneInner_err _ errText fs hp]) hx
    · exact absurd (by rw [serveOneInner_panic _ errText fs hp]) hx
    · rw [serveOneInner_handled _ errText fs hp hr] at hx ⊢
      dsimp only at hx ⊢
      by_cases hm : r.method = .Put
      · obtain ⟨e1, e2⟩ := (handled_files hh r.method r.uri r.body fs).2 hm
        rw [e1, e2]
        rw [serveOneInner_handled _ errText _ hp hr]
        obtain ⟨f1, f2⟩ := (handled_files hh r.method r.uri r.body (FileHandler.put root r.uri r.body fs).2.2).2 hm
        dsimp only
        rw [f1, f2]
        obtain ⟨g1, g2⟩ := put_again root r.uri r.body fs
        rw [g1, g2]
        exact ⟨rfl, rfl⟩
      · exact absurd ((handled_files hh r.method r.uri r.body fs).1 hm) hx
    · exact absurd (by rw [serveOneInner_refused _ errText fs hp hr]) hx
  have h9 : ∀ fs, (h.serveOneInner errText s fs).1 = (h.serveOneInner errText u fs).1 ∧
      (h.serveOneInner errText s fs).2.2 = (h.serveOneInner errText u fs).2.2 := by
    intro fs
    have h9 := (C09_request c (BufReader.new c s) (BufReader.new c u) (by rw [BufReader.trace_new, BufReader.trace_new, ht])).1
    rcases hx : HttpRequest.deserialize c (BufReader.new c s) with ⟨x, s1⟩
    rcases hy : HttpRequest.deserialize c (BufReader.new c u) with ⟨y, u1⟩
    rw [hx, hy] at h9
    dsimp only at h9
    cases h9 with
    | err e => rw [serveOneInner_err h errText fs hx, serveOneInner_err h errText fs hy]; exact ⟨rfl, rfl⟩
    | panic => rw [serveOneInner_panic h errText fs hx, serveOneInner_panic h errText fs hy]; exact ⟨rfl, rfl⟩
    | ok hr =>
      exact handled_same h (fileServer_byContent hh) errText fs hx hy hr.1 hr.2.1 fun _ => ⟨hr.2.2.2.2.kind, hr.2.2.2.2.events⟩
  obtain ⟨d, e, x, k1, k2, k3, k4, k5, k6⟩ := same_answers hra hrel hkept h ho errText s u fs (h.serveOneInner errText s fs).2.2 hs hu
    (key.1.symm.trans (h9 _).1) (key.2.symm.trans (h9 _).2)
  have hst := within_state (fileServer_release hh) errText s fs
  refine ⟨d, e, x, (h.serveOneInner errText s fs).2.2, ?_, ?_, k5, k6⟩
  · rw [← k1, ← hst]
  · rw [k3, ← k2]
    exact Prod.ext rfl (Prod.ext rfl (k4.symm.trans hst))

omit [LawfulWriter σ] in
/-- Where the uploads go is not changed by an upload. -/
theorem uploads_set {fs : Fs} {p : List Bytes} (hs : Storable fs p) (content : Bytes) (R : List Bytes) (u : σ) (q : List Bytes) :
    UploadsTo c (fs.set p content) R u q ↔ UploadsTo c fs R u q := by
  have hl : ∀ cs, Leads (fs.set p content) R cs q ↔ Leads fs R cs q := fun cs => by rw [← walk_iff, ← walk_iff]; exact walk_set hs ..
  exact ⟨fun ⟨r, s1, cs, h1, h2, h3, h4⟩ => ⟨r, s1, cs, h1, h2, h3, (hl cs).1 h4⟩,
    fun ⟨r, s1, cs, h1, h2, h3, h4⟩ => ⟨r, s1, cs, h1, h2, h3, (hl cs).2 h4⟩⟩

omit [LawfulWriter σ] in
/-- What a connection does to the files of a server whose root is at `R`: nothing in all states that have the same ways, or a
file at a place to which it uploads. -/
theorem files_step {h : Handler c Fs σ Wire Err} {root : Bytes} (hh : IsFileServer h root) (errText : Err → Bytes) (s : σ) {fs : Fs}
    {R : List Bytes} (hR : RootAt fs root R) :
    ((h.serveOneInner errText s fs).2.2 = fs ∧ ∀ p content, Storable fs p →
      (h.serveOneInner errText s (fs.set p content)).2.2 = fs.set p content) ∨
    ∃ p content, UploadsTo c fs R s p ∧ Storable fs p ∧ (h.serveOneInner errText s fs).2.2 = fs.set p content ∧
      ∀ q other, Storable fs q → q ≠ p → (h.serveOneInner errText s (fs.set q other)).2.2 = (fs.set q other).set p content := by
  rcases files_state hh errText s with h1 | ⟨r, s1, hp, hm, h1⟩
  · exact .inl ⟨h1 fs, fun p content _ => h1 _⟩
  · obtain ⟨content, h2⟩ := put_leaves root r.uri r.body
    by_cases hx : ∃ p, fs.resolve (joinPath root (trimSlashes r.uri)) = .ok p ∧ Storable fs p
    · obtain ⟨p, hres, hs⟩ := hx
      right
      obtain ⟨cs, ht⟩ := target_total r.uri
      have hup : UploadsTo c fs R s p := by
        have hres' := hres
        rw [resolve_join hR ht] at hres'
        split at hres'
        · simp at hres'
        · exact ⟨r, s1, cs, hp, hm, ht, walk_iff.1 hres'⟩
      refine ⟨p, content, hup, hs, by rw [h1, (h2 fs).2 p hres hs], fun q other hq hne => ?_⟩
      rw [h1, (h2 _).2 p ((resolve_set hq other _ p).2 hres) ?_]
      unfold Storable Fs.set
      rw [if_neg (fun e => hne e.symm)]
      exact hs
    · left
      refine ⟨by rw [h1, (h2 fs).1 fun p hp hs => hx ⟨p, hp, hs⟩], fun p content' hs => ?_⟩
      rw [h1, (h2 _).1]
      intro q hq hsq
      refine hx ⟨q, (resolve_set hs content' _ q).1 hq, ?_⟩
      by_cases e : q = p
      · subst e; exact hs
      · unfold Storable Fs.set at hsq
        rw [if_neg e] at hsq
        exact hsq

omit [CaseMap] [LawfulReader σ] [ZeroReader σ] [LawfulWriter σ] in
theorem Fs.set_swap (fs : Fs) {p q : List Bytes} (h : p ≠ q) (a b : Bytes) : (fs.set p a).set q b = (fs.set q b).set p a := by
  funext x
  unfold Fs.set
  by_cases h1 : x = p
  · subst h1; simp [h]
  · by_cases h2 : x = q
    · subst h2; simp [h1]
    · simp [h1, h2]

/-- The server goes on after a connection that does not make it panic. -/
theorem forever_cons {h : Handler c Fs σ Wire Err} {root : Bytes} (hh : IsFileServer h root) (errText : Err → Bytes) (s : σ)
    (l : List (Res σ)) (fs : Fs) (hs : ¬ CutRequest c (trace s)) :
    (h.serveForever errText (.ok s :: l) fs).2 = (h.serveForever errText l (h.serveOneInner errText s fs).2.2).2 := by
  have hno : (h.serveOne errText (.ok s) fs).1 ≠ .panic := by
    intro hx
    rcases (C54_panics_iff h errText s fs).1 hx with hx | ⟨r, s', _, _, hx⟩
    · exact hs hx
    · have hput : ∀ uri (body : HttpBody c (BufReader c σ)), (FileHandler.put root uri body fs).1 ≠ .panic := by
        intro uri body
        unfold FileHandler.put FileHandler.putOn
        split
        · simp
        · split <;> simp
      by_cases hm : r.method = .Put
      · rw [((handled_files hh r.method r.uri r.body fs).2 hm).1] at hx
        exact hput _ _ hx
      · rcases hh with ⟨e, rfl⟩ | ⟨rd, e, rfl⟩
        · cases hmm : r.method <;> rw [hmm] at hx hm
          case Put => exact hm rfl
          case Get =>
            have hx : (FileHandler.get c root r.uri fs).1 = .panic := hx
            unfold FileHandler.get at hx
            split at hx <;> simp at hx
          all_goals cases hx
        · cases hmm : r.method <;> rw [hmm] at hx hm
          case Put => exact hm rfl
          case Get =>
            have hx : (ListingHandler.get c rd root r.uri fs).1 = .panic := hx
            unfold ListingHandler.get ListingHandler.getAmid at hx
            dsimp only at hx
            repeat' (first | (simp at hx; done) | split at hx)
          all_goals cases hx
  have hst := within_state (fileServer_release hh) errText s fs
  rw [Handler.serveForever]
  rcases hx : h.serveOne errText (.ok s) fs with ⟨x | x | _, d, fs1⟩ <;> rw [hx] at hno hst <;> dsimp only at hst <;> subst hst
  · rfl
  · rfl
  · exact absurd rfl hno

/-- What clients do at the same time: if no two of them upload to the same place, and none brings what makes the server panic,
then the files are the same afterwards, in whatever order the server takes them. Some may bring uploads that cannot be made, or
break off, or other requests, or no requests. -/
theorem C164_order {h : Handler c Fs σ Wire Err} {root : Bytes} (hh : IsFileServer h root) (errText : Err → Bytes)
    {l l' : List σ} (hperm : l.Perm l') (hcut : ∀ s ∈ l, ¬ CutRequest c (trace s)) (fs : Fs) {R : List Bytes} (hR : RootAt fs root R)
    (hpair : l.Pairwise fun s u => ∀ p, ¬ (UploadsTo c fs R s p ∧ UploadsTo c fs R u p)) :
    (h.serveForever errText (l.map .ok) fs).2 = (h.serveForever errText (l'.map .ok) fs).2 := by
  induction hperm generalizing fs with
  | nil => rfl
  | cons s _ ih =>
    rw [List.map_cons, List.map_cons, forever_cons hh errText s _ fs (hcut s List.mem_cons_self),
      forever_cons hh errText s _ fs (hcut s List.mem_cons_self)]
    have hrest := (List.pairwise_cons.1 hpair).2
    rcases files_step hh errText s hR with ⟨h1, _⟩ | ⟨p, content, _, h2, h3, _⟩
    · rw [h1]; exact ih (fun s hs => hcut s (List.mem_cons_of_mem _ hs)) fs hR hrest
    · rw [h3]
      refine ih (fun s hs => hcut s (List.mem_cons_of_mem _ hs)) _ (hR.set h2 content) (hrest.imp fun hx q hq => ?_)
      rw [uploads_set h2, uploads_set h2] at hq
      exact hx q hq
  | swap s u l =>
    have cs := hcut s (by simp)
    have cu := hcut u (by simp)
    simp only [List.map_cons]
    rw [forever_cons hh errText _ _ _ cs, forever_cons hh errText _ _ _ cu, forever_cons hh errText _ _ _ cu,
      forever_cons hh errText _ _ _ cs]
    have hsu := (List.pairwise_cons.1 hpair).1 s List.mem_cons_self
    congr 2
    rcases files_step hh errText s hR with ⟨h1, h2⟩ | ⟨p, a, h1, h2, h3, h4⟩ <;>
      rcases files_step hh errText u hR with ⟨k1, k2⟩ | ⟨q, b, k1, k2, k3, k4⟩
    · rw [k1, h1, k1]
    · rw [k3, h1, h2 q b k2, k3]
    · rw [k1, h3, k2 p a h2]
    · have hne : p ≠ q := fun e => hsu p ⟨by rw [e]; exact k1, h1⟩
      rw [k3, h3, h4 q b k2 (Ne.symm hne), k4 p a h2 hne, Fs.set_swap fs hne]
  | trans h1 _ ih1 ih2 =>
    rw [ih1 hcut fs hR hpair]
    refine ih2 (fun s hs => hcut s (h1.mem_iff.2 hs)) fs hR ((h1.pairwise_iff ?_).1 hpair)
    intro a b hx p hp
    exact hx p ⟨hp.2, hp.1⟩

end

/-- An upload of three bytes. -/
def uploadOf (target content : Bytes) : Duplex Wire Sink :=
  requestConn (b!"PUT " ++ target ++ b!" HTTP/1.1\r\ncontent-length: 3\r\n\r\n" ++ content)

theorem upload_key (c : Cfg) : let _ := asciiCase
    ∀ t ∈ [b!"/a", b!"/b"], (match HttpRequest.deserialize c (BufReader.new c (uploadOf t b!"new")) with
      | (.ok r, _) => decide (r.uri = t ∧ r.method = .Put)
      | _ => false) = true := by
  rcases c with ⟨_ | _⟩ <;> decide +kernel

theorem uploads_to (c : Cfg) {t last : Bytes} (ht : t ∈ [b!"/a", b!"/b"]) (hl : t = 47 :: last) (p : List Bytes) : let _ := asciiCase
    UploadsTo c sampleFs [b!"srv"] (uploadOf t b!"new") p → p = [b!"srv", last] := by
  intro inst ⟨r, s1, cs, h1, _, h3, h4⟩
  have key := upload_key c t ht
  have hu : r.uri = t := by
    rw [h1] at key
    exact (of_decide_eq_true key).1
  rw [hu] at h3
  have hw := walk_iff.2 h4
  simp only [List.mem_cons, List.not_mem_nil, or_false] at ht
  rcases ht with rfl | rfl
  · have hl : last = b!"a" := by simpa using hl.symm
    rw [targetText_unique h3 (show TargetText b!"/a" [b!"a"] from ⟨1, b!"a", rfl, by decide, splitPath_iff.2 (by decide)⟩)] at hw
    have : sampleFs.walk [b!"srv"] [b!"a"] = .ok [b!"srv", b!"a"] := by rfl
    rw [this] at hw
    rw [hl]; exact (Except.ok.inj hw).symm
  · have hl : last = b!"b" := by simpa using hl.symm
    rw [targetText_unique h3 (show TargetText b!"/b" [b!"b"] from ⟨1, b!"b", rfl, by decide, splitPath_iff.2 (by decide)⟩)] at hw
    have : sampleFs.walk [b!"srv"] [b!"b"] = .ok [b!"srv", b!"b"] := by rfl
    rw [this] at hw
    rw [hl]; exact (Except.ok.inj hw).symm

/-- Witness for `C164_order`: two uploads to different places. -/
example (c : Cfg) : let _ := asciiCase
    let l := [uploadOf b!"/a" b!"new", uploadOf b!"/b" b!"new"]
    IsFileServer (fileHandler c (Duplex Wire Sink) b!"/srv" fun _ => []) b!"/srv" ∧ l.Perm l.reverse ∧
    (∀ s ∈ l, ¬ CutRequest c (trace s)) ∧ RootAt sampleFs b!"/srv" [b!"srv"] ∧
    (l.Pairwise fun s u => ∀ p, ¬ (UploadsTo c sampleFs [b!"srv"] s p ∧ UploadsTo c sampleFs [b!"srv"] u p)) ∧
    ((fileHandler c (Duplex Wire Sink) b!"/srv" fun _ => []).serveForever (fun _ => []) (l.map .ok) sampleFs).2 [b!"srv", b!"b"] =
      some (.file b!"new") := by
  intro inst l
  refine ⟨.inl ⟨_, rfl⟩, (List.reverse_perm l).symm, ?_, sampleFs_root, ?_, by rcases c with ⟨_ | _⟩ <;> decide +kernel⟩
  · intro s hs
    have h11 := C11_request_panics_iff c (BufReader.new c s)
    rw [BufReader.trace_new] at h11
    rw [← h11]
    intro hx
    simp only [l, List.mem_cons, List.not_mem_nil, or_false] at hs
    rcases hs with rfl | rfl
    · have key := upload_key c b!"/a" (by simp)
      rcases hd : HttpRequest.deserialize c (BufReader.new c (uploadOf b!"/a" b!"new")) with ⟨r, s1⟩
      rw [hd] at hx key; dsimp only at hx; subst hx; simp at key
    · have key := upload_key c b!"/b" (by simp)
      rcases hd : HttpRequest.deserialize c (BufReader.new c (uploadOf b!"/b" b!"new")) with ⟨r, s1⟩
      rw [hd] at hx key; dsimp only at hx; subst hx; simp at key
  · simp only [l, List.pairwise_cons, List.mem_cons, List.not_mem_nil, or_false, forall_eq, List.Pairwise.nil, and_true, false_implies,
      implies_true]
    intro p ⟨h1, h2⟩
    have e1 := uploads_to c (last := b!"a") (by simp) rfl p h1
    have e2 := uploads_to c (last := b!"b") (by simp) rfl p h2
    rw [e1] at e2
    simp at e2

/-- To one place the order matters; and what is answered may depend on the order even if the places differ: below `b` there is
nothing before it is a file, and a file is not a directory. -/
example (c : Cfg) : let _ := asciiCase
    let h := fileHandler c (Duplex Wire Sink) b!"/srv" fun e => if e = notFound then b!"nothing there" else b!"no"
    let files := fun l : List (Duplex Wire Sink) => (h.serveForever (fun _ => []) (l.map .ok) sampleFs).2
    let answers := fun l : List (Duplex Wire Sink) => (h.serveForever (fun _ => []) (l.map .ok) sampleFs).1.map fun x => x.2.map sent
    files [uploadOf b!"/a" b!"new", uploadOf b!"/a" b!"two"] [b!"srv", b!"a"] = some (.file b!"two") ∧
    files [uploadOf b!"/a" b!"two", uploadOf b!"/a" b!"new"] [b!"srv", b!"a"] = some (.file b!"new") ∧
    answers [uploadOf b!"/b/c" b!"new", uploadOf b!"/b" b!"new"] =
      [some b!"HTTP/1.1 500 Internal Server Error\r\n\r\nnothing there", some b!"HTTP/1.1 200 OK\r\n\r\n"] ∧
    answers [uploadOf b!"/b" b!"new", uploadOf b!"/b/c" b!"new"] =
      [some b!"HTTP/1.1 200 OK\r\n\r\n", some b!"HTTP/1.1 500 Internal Server Error\r\n\r\nno"] := by
  intro inst h files answers
  refine ⟨?_, ?_, ?_, ?_⟩ <;> rcases c with ⟨_ | _⟩ <;> decide +kernel

/-- Witness for `C164_safe`: the parser says what comes. -/
example (c : Cfg) : let _ := asciiCase
    let s := requestConn b!"DELETE /a HTTP/1.1\r\n\r\n"
    (match HttpRequest.deserialize c (BufReader.new c s) with | (.ok r, _) => decide (r.method ≠ .Put ∧ r.uri = b!"/a") | _ => false) = true := by
  rcases c with ⟨_ | _⟩ <;> decide +kernel

/-- Witness for `C164_one`: an upload that breaks off. -/
example (c : Cfg) : let _ := asciiCase
    RootAt sampleFs b!"/srv" [b!"srv"] ∧
    ((fileHandler c (Duplex Wire Sink) b!"/srv" fun _ => []).serveOne (fun _ => []) (.ok (uploadOf b!"/a" b!"ne")) sampleFs).2.2
      [b!"srv", b!"a"] ≠ sampleFs [b!"srv", b!"a"] := by
  refine ⟨sampleFs_root, ?_⟩
  rcases c with ⟨_ | _⟩ <;> decide +kernel

/-- Witness for `C164_again`: an upload that comes twice, in other pieces. -/
example : let _ := asciiCase
    let whole := requestConn b!"PUT /b HTTP/1.1\r\ntransfer-encoding: chunked\r\n\r\n3\r\nnew\r\n0\r\n\r\n"
    let h := fileHandler ⟨true⟩ (Duplex Wire Sink) b!"/srv" fun _ => []
    ∃ d e x fs', h.serveOne (fun _ => []) (.ok inPieces) sampleFs = ((h.serveOne (fun _ => []) (.ok inPieces) sampleFs).1, some d, fs') ∧
      h.serveOne (fun _ => []) (.ok whole) fs' = ((h.serveOne (fun _ => []) (.ok inPieces) sampleFs).1, some e, fs') ∧
      sent d = sent inPieces ++ x ∧ sent e = sent whole ++ x := by
  intro inst whole h
  exact C164_again duplex_readsApart (duplex_reliable (sink_reliable ⟨true⟩)) (fun _ _ h => h) (.inl ⟨_, rfl⟩) (fun _ => [])
    inPieces whole sampleFs (by simp [inPieces]) (by simp [whole, requestConn]) (by decide +kernel)

end HttpIo
