import Verif.Lemmas.Files
import Verif.Props.EndToEnd

/-! C66, C67: the file server of the documentation. -/

namespace HttpIo
open Spec

/-! ### C67 -/

theorem create_storable {fs : Fs} {path : Bytes} {p : List Bytes} (hr : fs.resolve path = .ok p) (h : Storable fs p) :
    fs.create path = .ok (p, fs.set p []) := by
  unfold Fs.create
  rw [hr]
  dsimp only
  rcases h with h | ⟨_, h⟩ <;> rw [h]

theorem create_other {fs : Fs} {path : Bytes} {p : List Bytes} (hr : fs.resolve path = .ok p) (h : ¬ Storable fs p) :
    fs.create path = .error (if fs p = some .dir then isDir else tooManyLinks) := by
  unfold Fs.create
  rw [hr]
  dsimp only
  cases hn : fs p with
  | none => exact absurd (.inl hn) h
  | some node =>
    cases node with
    | dir => rfl
    | link => rfl
    | file => exact absurd (.inr ⟨_, hn⟩) h

section
variable [CaseMap] {c : Cfg} {σ : Type} [LawfulReader σ] [ZeroReader σ]

omit [CaseMap] in
/-- What the handler does, in two file systems that agree below the root. -/
theorem handled_agrees {fs fs' : Fs} {root : Bytes} {R : List Bytes} (hR : RootAt fs root R) (hR' : RootAt fs' root R)
    (hag : ∀ q, R <+: q → fs q = fs' q) (errText : Err → Bytes) (m : HttpMethod) {uri : Bytes} {cs : List Bytes}
    (ht : TargetText uri cs) (hs : Confined fs R cs) (body : HttpBody c (BufReader c σ)) :
    (handled (fileHandler c σ root errText) m uri body fs).1 = (handled (fileHandler c σ root errText) m uri body fs').1 ∧
    (handled (fileHandler c σ root errText) m uri body fs).2.1 = (handled (fileHandler c σ root errText) m uri body fs').2.1 ∧
    (((handled (fileHandler c σ root errText) m uri body fs).2.2 = fs ∧
        (handled (fileHandler c σ root errText) m uri body fs').2.2 = fs') ∨
      ∃ p content, R <+: p ∧ Storable fs p ∧ Storable fs' p ∧
        (handled (fileHandler c σ root errText) m uri body fs).2.2 = fs.set p content ∧
        (handled (fileHandler c σ root errText) m uri body fs').2.2 = fs'.set p content) := by
  have h1 := resolve_join hR ht
  have h2 := resolve_join hR' ht
  obtain ⟨w1, w2⟩ := walk_confined hag hs
  rw [← w1] at h2
  cases m with
  | Get =>
    show (FileHandler.get c root uri fs).1 = (FileHandler.get c root uri fs').1 ∧ body = body ∧
      (((FileHandler.get c root uri fs).2 = fs ∧ (FileHandler.get c root uri fs').2 = fs') ∨ _)
    have hopen : fs.openFile (joinPath root (trimSlashes uri)) = fs'.openFile (joinPath root (trimSlashes uri)) := by
      unfold Fs.openFile
      rw [h1, h2]
      split
      · rfl
      · rename_i p hp
        have : R <+: p := by
          split at hp
          · simp at hp
          · exact w2 p hp
        rw [hag p this]
    unfold FileHandler.get
    rw [← hopen]
    cases fs.openFile (joinPath root (trimSlashes uri)) with
    | error e => exact ⟨rfl, rfl, .inl ⟨rfl, rfl⟩⟩
    | ok f => exact ⟨rfl, rfl, .inl ⟨rfl, rfl⟩⟩
  | Put =>
    show (FileHandler.put root uri body fs).1 = (FileHandler.put root uri body fs').1 ∧
      (FileHandler.put root uri body fs).2.1 = (FileHandler.put root uri body fs').2.1 ∧
      (((FileHandler.put root uri body fs).2.2 = fs ∧ (FileHandler.put root uri body fs').2.2 = fs') ∨
        ∃ p content, R <+: p ∧ Storable fs p ∧ Storable fs' p ∧
          (FileHandler.put root uri body fs).2.2 = fs.set p content ∧ (FileHandler.put root uri body fs').2.2 = fs'.set p content)
    unfold FileHandler.put FileHandler.putOn
    cases hr : (if (0 : UInt8) ∈ uri then .error (.io .invalidInput) else fs.walk R cs : Except Err (List Bytes)) with
    | error e =>
      unfold Fs.create
      rw [h1, h2, hr]
      exact ⟨rfl, rfl, .inl ⟨rfl, rfl⟩⟩
    | ok p =>
      rw [hr] at h1 h2
      have hp : R <+: p := by
        split at hr
        · simp at hr
        · exact w2 p hr
      by_cases hd : Storable fs p
      · have hd' : Storable fs' p := by unfold Storable; rw [← hag p hp]; exact hd
        rw [create_storable h1 hd, create_storable h2 hd']
        dsimp only
        rcases copy c body (Sink.mk [] 0 []) 0 with ⟨e | k, body', f⟩
        · exact ⟨rfl, rfl, .inr ⟨p, (sent f), hp, hd, hd', Fs.set_set .., Fs.set_set ..⟩⟩
        · exact ⟨rfl, rfl, .inr ⟨p, (sent f), hp, hd, hd', Fs.set_set .., Fs.set_set ..⟩⟩
      · rw [create_other h1 hd, create_other h2 (by unfold Storable; rw [← hag p hp]; exact hd), hag p hp]
        exact ⟨rfl, rfl, .inl ⟨rfl, rfl⟩⟩
  | _ => exact ⟨rfl, rfl, .inl ⟨rfl, rfl⟩⟩

/-- What the handler answers depends only on what is below the root, and it changes nothing else, as long as the target does
not lead above the root. -/
def ActsWithin (h : Handler c Fs σ Wire Err) (root : Bytes) (R : List Bytes) : Prop :=
  ∀ (fs fs' : Fs), RootAt fs root R → RootAt fs' root R → (∀ q, R <+: q → fs q = fs' q) →
    ∀ (m : HttpMethod) (uri : Bytes) (cs : List Bytes), TargetText uri cs → Confined fs R cs → ∀ body : HttpBody c (BufReader c σ),
      (handled h m uri body fs).1 = (handled h m uri body fs').1 ∧
      (handled h m uri body fs).2.1 = (handled h m uri body fs').2.1 ∧
      (((handled h m uri body fs).2.2 = fs ∧ (handled h m uri body fs').2.2 = fs') ∨
        ∃ p content, R <+: p ∧ Storable fs p ∧ Storable fs' p ∧
          (handled h m uri body fs).2.2 = fs.set p content ∧ (handled h m uri body fs').2.2 = fs'.set p content)

/-- What serving a connection does, in two file systems that agree below the root. -/
theorem inner_agrees {h : Handler c Fs σ Wire Err} {root : Bytes} {R : List Bytes} (hw : ActsWithin h root R) {fs fs' : Fs} (hR : RootAt fs root R) (hR' : RootAt fs' root R)
    (hag : ∀ q, R <+: q → fs q = fs' q) (errText : Err → Bytes) (s : σ)
    (hst : ∀ r s1, HttpRequest.deserialize c (BufReader.new c s) = (.ok r, s1) → ∀ cs, TargetText r.uri cs → Confined fs R cs) :
    (h.serveOneInner errText s fs).1 =
      (h.serveOneInner errText s fs').1 ∧
    (h.serveOneInner errText s fs).2.1 =
      (h.serveOneInner errText s fs').2.1 ∧
    (((h.serveOneInner errText s fs).2.2 = fs ∧
        (h.serveOneInner errText s fs').2.2 = fs') ∨
      ∃ p content, R <+: p ∧ Storable fs p ∧ Storable fs' p ∧
        (h.serveOneInner errText s fs).2.2 = fs.set p content ∧
        (h.serveOneInner errText s fs').2.2 = fs'.set p content) := by
  rcases inner_cases h errText s fs with ⟨e, s1, hp⟩ | ⟨s1, hp⟩ | ⟨r, s1, hp, hr⟩ | ⟨r, s1, hp, hr⟩
  · rw [serveOneInner_err _ errText fs hp, serveOneInner_err _ errText fs' hp]; exact ⟨rfl, rfl, .inl ⟨rfl, rfl⟩⟩
  · rw [serveOneInner_panic _ errText fs hp, serveOneInner_panic _ errText fs' hp]; exact ⟨rfl, rfl, .inl ⟨rfl, rfl⟩⟩
  · rw [serveOneInner_handled _ errText fs hp hr, serveOneInner_handled _ errText fs' hp hr]
    dsimp only
    obtain ⟨cs, ht⟩ := target_total r.uri
    obtain ⟨h1, h2, h3⟩ := hw fs fs' hR hR' hag r.method r.uri cs ht (hst r s1 hp cs ht) r.body
    exact ⟨by rw [h1], by rw [h2], h3⟩
  · rw [serveOneInner_refused _ errText fs hp hr, serveOneInner_refused _ errText fs' hp hr]
    exact ⟨rfl, rfl, .inl ⟨rfl, rfl⟩⟩

variable [Writer σ]

theorem within_state {h : Handler c Fs σ Wire Err} (hrel : ∀ b st, h.release b st = st) (errText : Err → Bytes) (s : σ) (fs : Fs) :
    (h.serveOne errText (.ok s) fs).2.2 = (h.serveOneInner errText s fs).2.2 := by
  unfold Handler.serveOne
  dsimp only
  rcases h.serveOneInner errText s fs with ⟨r | r | _, s1, fs1⟩
  · dsimp only; rcases respond c r s1 with ⟨_ | _, _, _⟩ <;> exact hrel _ _
  · dsimp only; rcases respond c r s1 with ⟨_ | _, _, _⟩ <;> rfl
  · rfl

theorem file_state (root : Bytes) (errText : Err → Bytes) (s : σ) (fs : Fs) :
    ((fileHandler c σ root errText).serveOne errText (.ok s) fs).2.2 =
      ((fileHandler c σ root errText).serveOneInner errText s fs).2.2 := within_state (fun _ _ => rfl) errText s fs

theorem serveOne_agrees {h : Handler c Fs σ Wire Err} {root : Bytes} {R : List Bytes} (hw : ActsWithin h root R)
    (hrel : ∀ b st, h.release b st = st) {fs fs' : Fs} (hR : RootAt fs root R) (hR' : RootAt fs' root R)
    (hag : ∀ q, R <+: q → fs q = fs' q) (errText : Err → Bytes) (a : Res σ)
    (hst : ∀ s, a = .ok s →
      ∀ r s1, HttpRequest.deserialize c (BufReader.new c s) = (.ok r, s1) → ∀ cs, TargetText r.uri cs → Confined fs R cs) :
    (h.serveOne errText a fs).1 = (h.serveOne errText a fs').1 ∧
    (h.serveOne errText a fs).2.1 = (h.serveOne errText a fs').2.1 ∧
    (((h.serveOne errText a fs).2.2 = fs ∧
        (h.serveOne errText a fs').2.2 = fs') ∨
      ∃ p content, R <+: p ∧ Storable fs p ∧ Storable fs' p ∧
        (h.serveOne errText a fs).2.2 = fs.set p content ∧
        (h.serveOne errText a fs').2.2 = fs'.set p content) := by
  cases a with
  | err e => exact ⟨rfl, rfl, .inl ⟨rfl, rfl⟩⟩
  | panic => exact ⟨rfl, rfl, .inl ⟨rfl, rfl⟩⟩
  | ok s =>
    obtain ⟨h1, h2, h3⟩ := inner_agrees hw hR hR' hag errText s (hst s rfl)
    rw [within_state hrel, within_state hrel]
    refine ⟨?_, ?_, h3⟩
    all_goals
      unfold Handler.serveOne
      dsimp only
      rcases hx : h.serveOneInner errText s fs with ⟨r, s1, fs1⟩
      rcases hy : h.serveOneInner errText s fs' with ⟨r', s1', fs1'⟩
      rw [hx, hy] at h1 h2
      dsimp only at h1 h2
      subst h1 h2
      rcases r with r | r | _
      · dsimp only; rcases respond c r s1 with ⟨_ | _, _, _⟩ <;> rfl
      · dsimp only; rcases respond c r s1 with ⟨_ | _, _, _⟩ <;> rfl
      · rfl

/-- So do all requests together. -/
theorem within_forever {h : Handler c Fs σ Wire Err} {root : Bytes} {R : List Bytes} (hw : ActsWithin h root R)
    (hrel : ∀ b st, h.release b st = st) (errText : Err → Bytes) (accepted : List (Res σ)) (fs fs' : Fs)
    (hst : ∀ s, .ok s ∈ accepted →
      ∀ r s1, HttpRequest.deserialize c (BufReader.new c s) = (.ok r, s1) → ∀ cs, TargetText r.uri cs → Confined fs R cs)
    (hR : RootAt fs root R) (hR' : RootAt fs' root R) (hag : ∀ q, R <+: q → fs q = fs' q) :
    (h.serveForever errText accepted fs).1 =
      (h.serveForever errText accepted fs').1 ∧
    (∀ q, R <+: q → (h.serveForever errText accepted fs).2 q =
      (h.serveForever errText accepted fs').2 q) ∧
    (∀ q, ¬ R <+: q → (h.serveForever errText accepted fs).2 q = fs q) := by
  induction accepted generalizing fs fs' with
  | nil => exact ⟨rfl, hag, fun _ _ => rfl⟩
  | cons a rest ih =>
    obtain ⟨h1, h2, h3⟩ := serveOne_agrees hw hrel hR hR' hag errText a (fun s hs => hst s (by simp [hs]))
    rcases hx : h.serveOne errText a fs with ⟨r, s1, fs1⟩
    rcases hy : h.serveOne errText a fs' with ⟨r', s1', fs1'⟩
    rw [hx, hy] at h1 h2 h3
    dsimp only at h1 h2 h3
    subst h1 h2
    have hout : ∀ q, ¬ R <+: q → fs1 q = fs q := by
      intro q hq
      rcases h3 with ⟨rfl, _⟩ | ⟨p, content, hp, _, _, rfl, _⟩
      · rfl
      · unfold Fs.set; rw [if_neg (by rintro rfl; exact hq hp)]
    have hag1 : ∀ q, R <+: q → fs1 q = fs1' q := by
      intro q hq
      rcases h3 with ⟨rfl, rfl⟩ | ⟨p, content, hp, _, _, rfl, rfl⟩
      · exact hag q hq
      · unfold Fs.set
        split
        · rfl
        · exact hag q hq
    have hR1 : RootAt fs1 root R := by
      rcases h3 with ⟨rfl, _⟩ | ⟨p, content, _, hd, _, rfl, _⟩
      · exact hR
      · exact hR.set hd content
    have hR1' : RootAt fs1' root R := by
      rcases h3 with ⟨_, rfl⟩ | ⟨p, content, _, _, hd, _, rfl⟩
      · exact hR'
      · exact hR'.set hd content
    have hst1 : ∀ s, .ok s ∈ rest → ∀ r s1, HttpRequest.deserialize c (BufReader.new c s) = (.ok r, s1) →
        ∀ cs, TargetText r.uri cs → Confined fs1 R cs := by
      intro s hs r s1 hd cs ht
      have hc := hst s (by simp [hs]) r s1 hd cs ht
      rcases h3 with ⟨rfl, _⟩ | ⟨p, content, _, _, _, rfl, _⟩
      · exact hc
      · exact hc.set content
    obtain ⟨i1, i2, i3⟩ := ih fs1 fs1' hst1 hR1 hR1' hag1
    unfold Handler.serveForever
    rw [hx, hy]
    cases r with
    | panic => exact ⟨rfl, hag1, hout⟩
    | ok _ =>
      dsimp only
      exact ⟨by rw [i1], i2, fun q hq => (i3 q hq).trans (hout q hq)⟩
    | err _ =>
      dsimp only
      exact ⟨by rw [i1], i2, fun q hq => (i3 q hq).trans (hout q hq)⟩

/-- As long as the targets of the requests do not lead above the root, and no symbolic links below it do: what the server does on every connection (what it
answers, byte by byte, and what it returns) depends only on what is below the root, and nothing else changes. For any
bytes on any number of connections, and for any two file systems that agree below the root. Missing for the full
property: targets with more `..` than names, see `C67_inside_false`, and links, see `C67_link_false`. -/
theorem C67_inside_partial {root : Bytes} {R : List Bytes} (errText : Err → Bytes) (accepted : List (Res σ)) (fs fs' : Fs)
    (hst : ∀ s, .ok s ∈ accepted →
      ∀ r s1, HttpRequest.deserialize c (BufReader.new c s) = (.ok r, s1) → ∀ cs, TargetText r.uri cs → Confined fs R cs)
    (hR : RootAt fs root R) (hR' : RootAt fs' root R) (hag : ∀ q, R <+: q → fs q = fs' q) :
    ((fileHandler c σ root errText).serveForever errText accepted fs).1 =
      ((fileHandler c σ root errText).serveForever errText accepted fs').1 ∧
    (∀ q, R <+: q → ((fileHandler c σ root errText).serveForever errText accepted fs).2 q =
      ((fileHandler c σ root errText).serveForever errText accepted fs').2 q) ∧
    (∀ q, ¬ R <+: q → ((fileHandler c σ root errText).serveForever errText accepted fs).2 q = fs q) :=
  within_forever (fun _ _ hR hR' hag m _ _ ht hs body => handled_agrees hR hR' hag errText m ht hs body) (fun _ _ => rfl)
    errText accepted fs fs' hst hR hR' hag

end

/-- A small file system: the directory `/srv` with a file `a` in it, and a file `/secret`. -/
def sampleFs : Fs := fun p =>
  if p = [] ∨ p = [b!"srv"] then some .dir
  else if p = [b!"srv", b!"a"] then some (.file b!"old")
  else if p = [b!"secret"] then some (.file b!"s3cret")
  else none

theorem sampleFs_root : RootAt sampleFs b!"/srv" [b!"srv"] :=
  ⟨by decide, by decide, by decide, [[], b!"srv"], splitPath_iff.2 (by decide), comes_of_walk (by rfl)⟩

/-- The connection on which `bs` arrives. -/
def requestConn (bs : Bytes) : Duplex Wire Sink := ⟨⟨[.data bs]⟩, ⟨[], 0, []⟩⟩

/-- False in general: `..` leads out of the directory that is served, for reading and for writing. -/
theorem C67_inside_false (c : Cfg) : let _ := asciiCase
    let server := fileHandler c (Duplex Wire Sink) b!"/srv" fun _ => []
    RootAt sampleFs b!"/srv" [b!"srv"] ∧ sampleFs [b!"secret"] = some (.file b!"s3cret") ∧ ¬ [b!"srv"] <+: [b!"secret"] ∧
    (server.serveOne (fun _ => []) (.ok (requestConn b!"GET /../secret HTTP/1.1\r\n\r\n")) sampleFs).2.1.map sent =
      some b!"HTTP/1.1 200 OK\r\n\r\ns3cret" ∧
    (server.serveOne (fun _ => []) (.ok (requestConn b!"PUT /../secret HTTP/1.1\r\ncontent-length: 2\r\n\r\nno")) sampleFs).2.2
      [b!"secret"] = some (.file b!"no") := by
  intro inst server
  refine ⟨sampleFs_root, by decide, by decide, ?_, ?_⟩ <;> rcases c with ⟨_ | _⟩ <;> decide +kernel

/-- A file system with symbolic links: `/srv/out` and `/srv/up` lead out of `/srv`. -/
def linkedFs : Fs := fun p =>
  if p = [] ∨ p = [b!"srv"] ∨ p = [b!"srv", b!"d"] then some .dir
  else if p = [b!"srv", b!"d", b!"a"] then some (.file b!"inside")
  else if p = [b!"srv", b!"out"] then some (.link b!"/secret")
  else if p = [b!"srv", b!"up"] then some (.link b!"d/../..")
  else if p = [b!"secret"] then some (.file b!"s3cret")
  else none

/-- False in general even without `..` in the targets: symbolic links below the root lead out of it, for reading and for
writing. With a link that leads to another directory, what comes after it is looked up there. -/
theorem C67_link_false (c : Cfg) : let _ := asciiCase
    let server := fileHandler c (Duplex Wire Sink) b!"/srv" fun _ => []
    RootAt linkedFs b!"/srv" [b!"srv"] ∧ Stays [b!"out"] ∧ b!".." ∉ [b!"out"] ∧ b!".." ∉ [b!"up", b!"secret"] ∧
    (server.serveOne (fun _ => []) (.ok (requestConn b!"GET /out HTTP/1.1\r\n\r\n")) linkedFs).2.1.map sent =
      some b!"HTTP/1.1 200 OK\r\n\r\ns3cret" ∧
    (server.serveOne (fun _ => []) (.ok (requestConn b!"GET /up/secret HTTP/1.1\r\n\r\n")) linkedFs).2.1.map sent =
      some b!"HTTP/1.1 200 OK\r\n\r\ns3cret" ∧
    (server.serveOne (fun _ => []) (.ok (requestConn b!"PUT /out HTTP/1.1\r\ncontent-length: 2\r\n\r\nno")) linkedFs).2.2
      [b!"secret"] = some (.file b!"no") := by
  intro inst server
  refine ⟨⟨by decide, by decide, by decide, [[], b!"srv"], splitPath_iff.2 (by decide), comes_of_walk (by rfl)⟩, ?_, by decide, by decide,
    ?_, ?_, ?_⟩
  · intro pre hpre
    rw [List.prefix_iff_eq_take] at hpre
    rw [hpre]
    generalize pre.length = k
    rcases k with _ | k
    · decide
    · rw [List.take_of_length_le (by simp)]; decide
  all_goals rcases c with ⟨_ | _⟩ <;> decide +kernel

/-- A file system with a symbolic link, `/srv/l`, that leads down, to where nothing is yet. -/
def downFs : Fs := fun p =>
  if p = [] ∨ p = [b!"srv"] ∨ p = [b!"srv", b!"e"] then some .dir
  else if p = [b!"srv", b!"e", b!"a"] then some (.file b!"inside")
  else if p = [b!"srv", b!"l"] then some (.link b!"./e/new")
  else none

theorem downFs_root : RootAt downFs b!"/srv" [b!"srv"] :=
  ⟨by decide, by decide, by decide, [[], b!"srv"], splitPath_iff.2 (by decide), comes_of_walk (by rfl)⟩

/-- The hypotheses of `C67_inside_partial` and of `C66_stored` with links: an upload to `/l` makes the file `/srv/e/new`. -/
example : let _ := asciiCase
    RootAt downFs b!"/srv" [b!"srv"] ∧ Confined downFs [b!"srv"] [b!"l"] ∧ ¬ NoLinks downFs [b!"srv"] ∧
    Leads downFs [b!"srv"] [b!"l"] [b!"srv", b!"e", b!"new"] ∧ Storable downFs [b!"srv", b!"e", b!"new"] ∧
    ((fileHandler ⟨true⟩ (Duplex Wire Sink) b!"/srv" fun _ => []).serveOne (fun _ => [])
      (.ok (requestConn b!"PUT /l HTTP/1.1\r\ncontent-length: 2\r\n\r\nok")) downFs).2.2 [b!"srv", b!"e", b!"new"] = some (.file b!"ok") := by
  intro _
  refine ⟨downFs_root, .inr ⟨?_, by decide⟩, fun h => h [b!"srv", b!"l"] (by decide) b!"./e/new" (by decide), walk_iff.1 (by rfl),
    .inl (by decide), by decide +kernel⟩
  intro q text hq hl
  unfold downFs at hl
  split at hl
  · simp at hl
  · split at hl
    · simp at hl
    · split at hl
      · simp only [Option.some.injEq, Node.link.injEq] at hl
        subst hl
        refine ⟨by decide, fun ts hts => ?_⟩
        rw [← splitPath_iff.1 hts]
        decide
      · simp at hl

theorem sampleFs_noLinks (R : List Bytes) : NoLinks sampleFs R := by
  intro q _ text h
  unfold sampleFs at h
  split at h
  · simp at h
  · split at h
    · simp at h
    · split at h <;> simp at h

theorem stays_sample : Stays [b!"x", b!"..", b!"a"] := by
  intro pre hpre
  rw [List.prefix_iff_eq_take] at hpre
  rw [hpre]
  generalize pre.length = k
  rcases k with _ | _ | _ | k
  · decide
  · decide
  · decide
  · rw [List.take_of_length_le (by simp)]; decide

/-- Witness for `C67_inside_partial`: `/x/../a` stays below the root, and two file systems that differ outside. -/
example : let _ := asciiCase
    let s := requestConn b!"GET //x/../a HTTP/1.1\r\n\r\n"
    let fs' : Fs := sampleFs.set [b!"secret"] b!"other"
    TargetText b!"//x/../a" [b!"x", b!"..", b!"a"] ∧ Confined sampleFs [b!"srv"] [b!"x", b!"..", b!"a"] ∧
    (match HttpRequest.deserialize ⟨true⟩ (BufReader.new ⟨true⟩ s) with | (.ok r, _) => decide (r.uri = b!"//x/../a") | _ => false) = true ∧
    RootAt fs' b!"/srv" [b!"srv"] ∧ sampleFs [b!"secret"] ≠ fs' [b!"secret"] ∧ ∀ q, [b!"srv"] <+: q → sampleFs q = fs' q := by
  intro inst s fs'
  refine ⟨⟨2, b!"x/../a", rfl, by decide, splitPath_iff.2 (by decide)⟩, .inl ⟨sampleFs_noLinks _, stays_sample⟩, by decide +kernel,
    sampleFs_root.set (.inr ⟨b!"s3cret", by decide⟩) _, by decide, fun q hq => ?_⟩
  show _ = Fs.set _ _ _ _
  unfold Fs.set
  rw [if_neg (by rintro rfl; revert hq; decide)]

/-! ### C66, C68 -/

section
variable [CaseMap] {c : Cfg} {σ : Type} [LawfulReader σ] [ZeroReader σ] [LawfulWriter σ]

omit [CaseMap] [LawfulWriter σ] in
/-- The handler's `put`, when the body arrives whole. -/
theorem put_stores {fs : Fs} {root target : Bytes} {R cs p : List Bytes} (hR : RootAt fs root R) (ht : TargetText target cs)
    (h0 : (0 : UInt8) ∉ target) (hl : Leads fs R cs p) (hp : Storable fs p) (body : HttpBody c (BufReader c σ)) (bs : Bytes)
    (hy : Yields body bs) :
    ∃ b, FileHandler.put root target body fs = (.ok (HttpResponse.new c .OK (.B ⟨[]⟩)), b, fs.set p bs) := by
  have hres := resolve_join hR ht
  rw [if_neg h0, walk_iff.2 hl] at hres
  unfold FileHandler.put FileHandler.putOn
  rw [create_storable hres hp]
  dsimp only
  obtain ⟨k, b, f, h1, _⟩ := (sink_reliable c).copy_ok (r := body) (s := Sink.mk [] 0 []) (n := 0) (by simp)
    (bs := bs) (t' := []) (by rw [trace_of_yields hy]; simpa using delivers_map c bs []) (by simp [Ended])
  rw [h1]
  obtain ⟨bs', t', h2, h3, h4, _⟩ := C33_copy_ok c _ _ _ _ _ _ h1
  have : bs' = bs := Delivers.ended_unique h2 h3 (by rw [trace_of_yields hy]; simpa using delivers_map c bs []) (by simp [Ended])
  subst this
  refine ⟨b, ?_⟩
  dsimp only
  rw [Fs.set_set, show (sent f) = bs' from h4]

/-- A PUT with a body that arrives whole: the file it names has that body as its content, nothing else has changed, and the
answer is 200 without a body. -/
theorem C66_stored {fs : Fs} {root target : Bytes} {R cs p : List Bytes} (hR : RootAt fs root R) (ht : TargetText target cs)
    (h0 : (0 : UInt8) ∉ target) (hl : Leads fs R cs p) (hp : Storable fs p) (errText : Err → Bytes) (s : σ)
    (r : HttpRequest c (BufReader c σ)) (s1 : BufReader c σ)
    (hd : HttpRequest.deserialize c (BufReader.new c s) = (.ok r, s1)) (hm : r.method = .Put) (hu : r.uri = target)
    (hf : framing r.body ≠ .tilClose) (bs : Bytes) (hy : Yields r.body bs) :
    (∃ a, ((fileHandler c σ root errText).serveOneInner errText s fs).1 = .ok a ∧ a.status = .OK ∧ a.version = ⟨1, 1⟩ ∧
      a.headers.entries = [] ∧ Yields a.body []) ∧
    ((fileHandler c σ root errText).serveOne errText (.ok s) fs).2.2 = fun q => if q = p then some (.file bs) else fs q := by
  have hput := put_stores hR ht h0 hl hp r.body bs hy
  obtain ⟨b, hput⟩ := hput
  have hi := serveOneInner_handled (fileHandler c σ root errText) errText fs hd (fun _ => hf)
  rw [hm, hu] at hi
  have hh : handled (fileHandler c σ root errText) .Put target r.body fs = FileHandler.put root target r.body fs := rfl
  rw [hh, hput] at hi
  rw [file_state, hi]
  refine ⟨⟨_, rfl, rfl, rfl, rfl, yields_of_trace ?_⟩, rfl⟩
  show trace (BufReader.new c (StreamEither.B (Wire.mk []) : Boxed Wire)) = _
  rw [BufReader.trace_new]
  rfl

omit [CaseMap] in
/-- The handler's `get` of a file. -/
theorem get_opens {fs : Fs} {root target : Bytes} {R cs p : List Bytes} (hR : RootAt fs root R) (ht : TargetText target cs)
    (h0 : (0 : UInt8) ∉ target) (hl : Leads fs R cs p) (content : Bytes) (hp : fs p = some (.file content)) :
    FileHandler.get c root target fs = (.ok (HttpResponse.new c .OK (.B ⟨[.data content]⟩)), fs) := by
  have hres := resolve_join hR ht
  rw [if_neg h0, walk_iff.2 hl] at hres
  unfold FileHandler.get Fs.openFile
  rw [hres]
  dsimp only
  rw [hp]

/-- A GET of a file is answered with 200 and its content; nothing changes. -/
theorem C66_fetched {fs : Fs} {root target : Bytes} {R cs p : List Bytes} (hR : RootAt fs root R) (ht : TargetText target cs)
    (h0 : (0 : UInt8) ∉ target) (hl : Leads fs R cs p) (content : Bytes) (hp : fs p = some (.file content)) (errText : Err → Bytes)
    (s : σ) (r : HttpRequest c (BufReader c σ)) (s1 : BufReader c σ)
    (hd : HttpRequest.deserialize c (BufReader.new c s) = (.ok r, s1)) (hm : r.method = .Get) (hu : r.uri = target) :
    (∃ a, ((fileHandler c σ root errText).serveOneInner errText s fs).1 = .ok a ∧ a.status = .OK ∧ a.version = ⟨1, 1⟩ ∧
      a.headers.entries = [] ∧ Yields a.body content) ∧
    ((fileHandler c σ root errText).serveOne errText (.ok s) fs).2.2 = fs := by
  have hget := get_opens (c := c) hR ht h0 hl content hp
  have hi := serveOneInner_handled (fileHandler c σ root errText) errText fs hd (by
    intro h; rw [hm] at h; simp at h)
  rw [hm, hu] at hi
  have hh : handled (fileHandler c σ root errText) .Get target r.body fs =
      ((FileHandler.get c root target fs).1, r.body, (FileHandler.get c root target fs).2) := rfl
  rw [hh, hget] at hi
  rw [file_state, hi]
  refine ⟨⟨_, rfl, rfl, rfl, rfl, yields_of_trace ?_⟩, rfl⟩
  show trace (BufReader.new c (StreamEither.B (Wire.mk [.data content]) : Boxed Wire)) = _
  rw [BufReader.trace_new]
  show List.flatMap WireEv.events [.data content] = _
  simp [WireEv.events]

/-- A PUT on one connection and a GET of the same target on a later one, over transports that do not fail: the bytes sent to
the client that asks are the head of a 200 response and the body that was uploaded. -/
theorem C66_put_get {P : σ → Prop} (hra : ReadsApart σ) (hrel : Reliable c P) (hkept : ∀ s n, P s → P (read s n).2)
    {fs : Fs} {root target : Bytes} {R cs p : List Bytes} (hR : RootAt fs root R) (ht : TargetText target cs)
    (h0 : (0 : UInt8) ∉ target) (hl : Leads fs R cs p) (hp : Storable fs p) (errText : Err → Bytes) (s u : σ)
    (r q : HttpRequest c (BufReader c σ)) (s1 u1 : BufReader c σ)
    (hd : HttpRequest.deserialize c (BufReader.new c s) = (.ok r, s1)) (hm : r.method = .Put) (hu : r.uri = target)
    (hf : framing r.body ≠ .tilClose) (bs : Bytes) (hy : Yields r.body bs)
    (hd' : HttpRequest.deserialize c (BufReader.new c u) = (.ok q, u1)) (hm' : q.method = .Get) (hu' : q.uri = target) (hP : P u) :
    ∃ s' u' fs', (fileHandler c σ root errText).serveForever errText [.ok s, .ok u] fs = ([s', (.ok (), some u')], fs') ∧
      s'.1 ≠ .panic ∧ sent u' = sent u ++ responseHead (utf8 "200 OK") [] ++ bs ∧
      ∀ x, fs' x = if x = p then some (.file bs) else fs x := by
  obtain ⟨⟨a, a1, a2, a3, a4, a5⟩, hst⟩ := C66_stored hR ht h0 hl hp errText s r s1 hd hm hu hf bs hy
  have hset : ((fileHandler c σ root errText).serveOne errText (.ok s) fs).2.2 = fs.set p bs := hst
  obtain ⟨⟨b, b1, b2, b3, b4, b5⟩, hst'⟩ := C66_fetched (fs := fs.set p bs) (hR.set hp bs) ht h0 (hl.set hp) bs
    (by unfold Fs.set; rw [if_pos rfl]) errText u q u1 hd' hm' hu'
  obtain ⟨g1, u', g2, _, g3⟩ := serve_succeeds hra hrel hkept (fileHandler c σ root errText) (fileHandler_onlyReads root errText)
    errText u (fs.set p bs) hP b (.inl b1) b3 bs []
    (by rw [trace_of_yields b5]; simpa using delivers_map c bs []) (by simp [Ended])
  have hnp : ((fileHandler c σ root errText).serveOne errText (.ok s) fs).1 ≠ .panic := by
    rw [(serveOne_respond (fileHandler c σ root errText) errText s fs a (.inl a1)).1]
    split <;> simp
  have h2 : (fileHandler c σ root errText).serveForever errText [.ok u] (fs.set p bs) = ([(.ok (), some u')], fs.set p bs) := by
    rcases hx : (fileHandler c σ root errText).serveOne errText (.ok u) (fs.set p bs) with ⟨x, y, z⟩
    rw [hx] at g1 g2 hst'
    dsimp only at g1 g2 hst'
    subst g1 g2 hst'
    unfold Handler.serveForever
    rw [hx]
    rfl
  rcases hx : (fileHandler c σ root errText).serveOne errText (.ok s) fs with ⟨x, y, z⟩
  rw [hx] at hset hnp
  dsimp only at hset hnp
  subst hset
  refine ⟨(x, y), u', fs.set p bs, ?_, hnp, ?_, fun _ => rfl⟩
  · rw [Handler.serveForever, hx]
    cases x with
    | panic => exact absurd rfl hnp
    | ok _ => dsimp only; rw [h2]
    | err _ => dsimp only; rw [h2]
  · rw [g3, b2, b4, show HttpStatus.OK.display = utf8 "200 OK" by decide +kernel]

/-- Whatever a connection brings: the file system is as it was, or one file has been written by a PUT, at a place where there
was a file or nothing, and its content is a beginning of the body that was received; all of it if the handler reports success.
Missing for the full property: the old content is lost when the upload fails, see `C68_failed_false`. -/
theorem C68_written_partial (fs : Fs) (root : Bytes) (errText : Err → Bytes) (s : σ) :
    ((fileHandler c σ root errText).serveOne errText (.ok s) fs).2.2 = fs ∨
    ∃ r s1 p bs t' content, HttpRequest.deserialize c (BufReader.new c s) = (.ok r, s1) ∧ r.method = .Put ∧ Storable fs p ∧
      Delivers c (trace r.body) bs t' ∧ content <+: bs ∧
      (∀ q, ((fileHandler c σ root errText).serveOne errText (.ok s) fs).2.2 q =
        if q = p then some (.file content) else fs q) ∧
      ((∃ a, ((fileHandler c σ root errText).serveOneInner errText s fs).1 = .ok a) → content = bs ∧ Ended c t') := by
  rw [file_state]
  rcases inner_cases (fileHandler c σ root errText) errText s fs with ⟨e, s1, hp⟩ | ⟨s1, hp⟩ | ⟨r, s1, hp, hr⟩ | ⟨r, s1, hp, hr⟩
  · rw [serveOneInner_err _ errText fs hp]; exact .inl rfl
  · rw [serveOneInner_panic _ errText fs hp]; exact .inl rfl
  · rw [serveOneInner_handled _ errText fs hp hr]
    cases hm : r.method with
    | Get =>
      left
      show (FileHandler.get c root r.uri fs).2 = fs
      unfold FileHandler.get
      split <;> rfl
    | Put =>
      have hh : handled (fileHandler c σ root errText) .Put r.uri r.body fs = FileHandler.put root r.uri r.body fs := rfl
      rw [hh]
      unfold FileHandler.put FileHandler.putOn
      rcases hres : fs.resolve (joinPath root (trimSlashes r.uri)) with e | p
      · unfold Fs.create; rw [hres]; exact .inl rfl
      · by_cases hd : Storable fs p
        case neg => rw [create_other hres hd]; exact .inl rfl
        case pos =>
          rw [create_storable hres hd]
          dsimp only
          right
          rcases hc : copy c r.body (Sink.mk [] 0 []) 0 with ⟨e | k, b, f⟩
          · dsimp only
            obtain ⟨content, bs, t', h1, h2, h3⟩ := C33_copy_err c _ _ _ _ _ _ hc
            have h3 : (sent f) = content := h3
            refine ⟨r, s1, p, bs, t', content, hp, hm, hd, h1, h2, fun q => ?_, ?_⟩
            · rw [Fs.set_set, h3]; rfl
            · rintro ⟨a, ha⟩; simp [Reply.mapErr] at ha
          · dsimp only
            obtain ⟨bs, t', h1, h2, h3, _⟩ := C33_copy_ok c _ _ _ _ _ _ hc
            have h3 : (sent f) = bs := h3
            refine ⟨r, s1, p, bs, t', bs, hp, hm, hd, h1, List.prefix_refl _, fun q => ?_, fun _ => ⟨rfl, h2⟩⟩
            rw [Fs.set_set, h3]; rfl
    | _ => exact .inl rfl
  · rw [serveOneInner_refused _ errText fs hp hr]; exact .inl rfl

end

/-- False in general: an upload that is cut off is answered with an error, and the file it was to replace is lost. -/
theorem C68_failed_false (c : Cfg) : let _ := asciiCase
    let conn := requestConn b!"PUT /a HTTP/1.1\r\ntransfer-encoding: chunked\r\n\r\n5\r\nne"
    let server := fileHandler c (Duplex Wire Sink) b!"/srv" fun _ => []
    sampleFs [b!"srv", b!"a"] = some (.file b!"old") ∧
    (server.serveOne (fun _ => []) (.ok conn) sampleFs).2.1.map sent = some b!"HTTP/1.1 500 Internal Server Error\r\n\r\n" ∧
    (server.serveOne (fun _ => []) (.ok conn) sampleFs).2.2 [b!"srv", b!"a"] ≠ some (.file b!"old") := by
  intro inst server
  refine ⟨by decide, ?_, ?_⟩ <;> rcases c with ⟨_ | _⟩ <;> decide +kernel

/-- Witness for `C66_stored`, `C66_fetched`, `C66_put_get`: the hypotheses hold, and the run is evaluated. -/
example : let _ := asciiCase
    let s := requestConn b!"PUT /b HTTP/1.1\r\ntransfer-encoding: chunked\r\n\r\n3\r\nnew\r\n0\r\n\r\n"
    let u := requestConn b!"GET /b HTTP/1.1\r\n\r\n"
    let server := fileHandler ⟨false⟩ (Duplex Wire Sink) b!"/srv" fun _ => []
    TargetText b!"/b" [b!"b"] ∧ Leads sampleFs [b!"srv"] [b!"b"] [b!"srv", b!"b"] ∧
    Storable sampleFs [b!"srv", b!"b"] ∧
    (match HttpRequest.deserialize ⟨false⟩ (BufReader.new ⟨false⟩ s) with
      | (.ok r, _) => decide (r.uri = b!"/b" ∧ r.method = .Put ∧ framing r.body = .chunked ∧ trace r.body = b!"new".map .byte)
      | _ => false) = true ∧
    ((server.serveForever (fun _ => []) [.ok s, .ok u] sampleFs).1.map fun x => x.2.map sent) =
      [some b!"HTTP/1.1 200 OK\r\n\r\n", some b!"HTTP/1.1 200 OK\r\n\r\nnew"] := by
  intro inst s u server
  exact ⟨⟨1, b!"b", rfl, by decide, splitPath_iff.2 (by decide)⟩,     walk_iff.1 (by rfl), .inl (by decide), by decide +kernel, by decide +kernel⟩

end HttpIo
