import Verif.Props.Programs
import Verif.Props.Desync
import Verif.Lemmas.Script

/-! C108: `examples/connection_reuse.rs`. -/

namespace HttpIo
open Spec

section
variable [CaseMap] {c : Cfg} {ω α σ ο : Type} [DecidableEq α] [PeerSocket σ] [ZeroReader σ] [LawfulWriter ο]

/-- One turn of the loop, as a use of a client. -/
def printUse (out : ο) (o : OutgoingRequest c σ) : (Res Unit × ο) × σ :=
  match o.finish with
  | (.err e, s) => ((.err e, out), s)
  | (.panic, s) => ((.panic, out), s)
  | (.ok r, s) =>
    match printBody (c := c) r.body out with
    | (res, body, out) => ((res, out), (body.under.map (·.inner)).getD s)

omit [DecidableEq α] in
theorem fetch_step [DecidableEq α] (N : StreamConnector ω α σ) (url : Url) (path : Bytes) (paths : List Bytes) (cl : HttpClient α σ) (w : ω)
    (out : ο) : fetchPaths c N url (path :: paths) cl w out =
      match exchange (c := c) N ⟨false, some { url with path }, printUse out⟩ cl w with
      | (.err e, cl, w) => (.err e, cl, w, out)
      | (.panic, cl, w) => (.panic, cl, w, out)
      | (.ok (.err e, out), cl, w) => (.err e, cl, w, out)
      | (.ok (.panic, out), cl, w) => (.panic, cl, w, out)
      | (.ok (.ok _, out), cl, w) => fetchPaths c N url paths cl w out := by
  rw [fetchPaths]
  unfold exchange
  rw [if_neg (by simp)]
  dsimp only
  rcases cl.get c N (some { url with path }) w with ⟨_ | _ | _, cl1, w1⟩
  · rename_i x
    obtain ⟨a, o⟩ := x
    dsimp only
    unfold printUse
    rcases o.finish with ⟨_ | _ | _, s⟩
    · rename_i r
      dsimp only
      rcases printBody (c := c) r.body out with ⟨_ | _ | _, body, out1⟩ <;> rfl
    · rfl
    · rfl
  · rfl
  · rfl

/-- One request and its response, printed. -/
theorem print_answered {P : σ → Prop} (hr : Reliable c P) {Q : ο → Prop} (hq : Reliable c Q) (idle : List Ev)
    (hP : ∀ s n, P s → idle <:+ trace (read s n).2 → P (read s n).2) (hidle : ∀ b t, idle ≠ .byte b :: t)
    {pr : Bytes → List Ev} {got : List Ev} {w : Bytes} {s : σ} (hs : Rests P pr idle [] got w s) (url : Url) (hu : Askable url)
    (path : Bytes) {κ : Type} {said : κ → List Ev → Prop} (k : κ) (a : Answer) (ha : a.Proper)
    (hsaid : ∀ evs, said k evs → a.Sent c evs) (rest : List (Ask × κ))
    (hserves : Serves said pr idle w got ((getOf url path, k) :: rest)) (out : ο) (ho : Q out) :
    ∃ b o s' out' got' w', HttpRequestBuilder.new c (HttpUrl.tryFrom { url with path }) .Get = .ok b ∧
      b.send s = .ok o ∧ printUse out o = ((.ok (), out'), s') ∧ Q out' ∧ sent out' = sent out ++ a.body ∧
      Rests P pr idle [] got' w' s' ∧ Serves said pr idle w' got' rest := by
  obtain ⟨rfl, rfl⟩ : pr = PeerSocket.peer s ∧ w = wire s := ⟨hs.peer.symm, hs.wire.symm⟩
  obtain ⟨b, o, o', s1, bytes, evs, h1, h2, h3, h4, h6, h7, h8, h9, g1, g2, htr, g4⟩ :=
    request_heard hr s hs.fine hs.flushed (getOf url path)
      ⟨hu.ascii, hu.scheme, hu.host, by simp [written, getOf], by simp [written, getOf]⟩ hs.taken hserves
  rw [if_neg (by simp [getOf])] at h1
  dsimp only [getOf] at h1 h3
  rw [perform] at h3
  simp only [Prod.mk.injEq, true_and] at h3
  subst h3
  obtain ⟨hd, g2, g3⟩ := hsaid _ g2
  obtain ⟨pre, e1, e2⟩ := g3.suffix
  rw [List.append_nil] at e1
  have hdel : Delivers c (trace s1) (responseHead a.status.display a.headers.entries) (a.body.map .byte ++ idle) := by
    rw [htr, g2, e1, List.nil_append, List.append_assoc]; exact e2 _
  obtain ⟨r, s2, f1, f2, _, f3, f4, f5, f6⟩ := response_delivered c s1 a.status a.headers _ ha.sendable
    (FramedBy.lengthOk ha.sendable.1 ha.framed) hdel
  have hfr := framedBy_unique ha.sendable.1 f4 ha.framed
  have hbody : r.body = .Limited ⟨BufReader.new c s2, a.body.length⟩ := by
    cases hb : r.body with
    | Chunked i => rw [hb] at hfr; simp [framing] at hfr
    | ReadTilClose i => rw [hb] at hfr; simp [framing] at hfr
    | Limited t =>
      rw [hb] at hfr f5
      obtain ⟨i, l⟩ := t
      simp only [framing, Framing.limited.injEq] at hfr
      simp only [HttpBody.under, Option.some.injEq] at f5
      rw [hfr, f5]
  have hbt : trace (BufReader.new c s2) = a.body.map .byte ++ idle := by rw [BufReader.trace_new, f6]
  have hdb := delivers_limit (delivers_map c a.body idle) 0
  rw [Nat.add_zero, ← hbt] at hdb
  have hdb : Delivers c (trace (HttpBody.Limited ⟨BufReader.new c s2, a.body.length⟩ : HttpBody c (BufReader c σ))) a.body
      (limitTrace 0 idle) := hdb
  rw [← hbody] at hdb
  obtain ⟨body', out', k1, k2, k3⟩ := printBody_ok hq ho hdb (by
    intro ev h
    have : limitTrace 0 idle = [] := by cases idle <;> simp [limitTrace]
    rw [this] at h; simp at h)
  obtain ⟨sizes, c1, c2, c3⟩ := copy_calls c r.body out 0
  have hcopy : ∃ k, copy c r.body out 0 = (.ok k, body', out') := by
    unfold printBody at k1
    rcases hcp : copy c r.body out 0 with ⟨_ | k, b1, o1⟩
    · rw [hcp] at k1; simp at k1
    · rw [hcp] at k1
      simp only [Prod.mk.injEq, true_and] at k1
      exact ⟨k, by rw [k1.1, k1.2]⟩
  obtain ⟨k, hcopy⟩ := hcopy
  rw [hcopy] at c1 c3
  dsimp only at c1
  have hend := c3 k rfl
  rw [hbody] at hend
  obtain ⟨s3, m2, m3⟩ := limited_read_end (c := c) (BufReader.new c s2) a.body idle hbt sizes c2 hend
  rw [← hbody] at m2
  obtain ⟨left, l1, l2, _⟩ := bufReader_left s3 [] idle hidle m3
  rw [List.suffix_nil.1 l1] at l2
  have hkept := body_kept hP h8 h7 f1 m2
  rw [h9] at hkept
  rw [← c1] at m2
  refine ⟨b, o, s3.inner, out', got ++ evs, _, h1, h2, ?_, k2, k3, rests_of_read hkept l2 g1, g4⟩
  have hfin : o.finish = (.ok r, s2) := by unfold OutgoingRequest.finish; rw [h4]; exact f1
  unfold printUse
  rw [hfin]; dsimp only
  rw [k1]; dsimp only
  rw [m2]; rfl

/-- The same for a chunked response: the CR LF with which the body ends, or the end of it, may be left. -/
theorem print_chunked {P : σ → Prop} (hr : Reliable c P) {Q : ο → Prop} (hq : Reliable c Q) (idle : List Ev)
    (hP : ∀ s n, P s → idle <:+ trace (read s n).2 → P (read s n).2) (hidle : ∀ b t, idle ≠ .byte b :: t)
    {pr : Bytes → List Ev} {got : List Ev} {w : Bytes} {s : σ} (hs : Rests P pr idle [] got w s) (url : Url) (hu : Askable url)
    (path : Bytes) {κ : Type} {said : κ → List Ev → Prop} (k : κ) (a : ChunkedAnswer) (ha : a.Proper)
    (hsaid : ∀ evs, said k evs → a.Sent c evs) (rest : List (Ask × κ))
    (hserves : Serves said pr idle w got ((getOf url path, k) :: rest)) (out : ο) (ho : Q out) :
    ∃ b o s' out' left got' w', HttpRequestBuilder.new c (HttpUrl.tryFrom { url with path }) .Get = .ok b ∧
      b.send s = .ok o ∧ printUse out o = ((.ok (), out'), s') ∧ Q out' ∧ sent out' = sent out ++ chunkedData a.chunks ∧
      (c.std = false → left = [13, 10]) ∧ (c.std = true → Together P idle → left = []) ∧
      Rests P pr idle (left.map .byte) got' w' s' ∧ Serves said pr idle w' got' rest := by
  obtain ⟨rfl, rfl⟩ : pr = PeerSocket.peer s ∧ w = wire s := ⟨hs.peer.symm, hs.wire.symm⟩
  obtain ⟨b, o, o', s1, bytes, evs, h1, h2, h3, h4, h6, h7, h8, h9, g1, g2, htr, g4⟩ :=
    request_heard hr s hs.fine hs.flushed (getOf url path)
      ⟨hu.ascii, hu.scheme, hu.host, by simp [written, getOf], by simp [written, getOf]⟩ hs.taken hserves
  rw [if_neg (by simp [getOf])] at h1
  dsimp only [getOf] at h1 h3
  rw [perform] at h3
  simp only [Prod.mk.injEq, true_and] at h3
  subst h3
  obtain ⟨r, s2, f1, _, _, f2, _, f4⟩ := chunked_heard a ha (by rw [htr, List.nil_append]) (hsaid _ g2)
  obtain ⟨body', out', k1, k2, k3⟩ := printBody_ok hq ho (t' := []) (bs := chunkedData a.chunks)
    (by rw [f2]; have := delivers_map c (chunkedData a.chunks) []; rwa [List.append_nil] at this) (by simp [Ended])
  obtain ⟨sizes, c1, c2, c3⟩ := copy_calls c r.body out 0
  have hcopy : ∃ k, copy c r.body out 0 = (.ok k, body', out') := by
    unfold printBody at k1
    rcases hcp : copy c r.body out 0 with ⟨_ | k, b1, o1⟩
    · rw [hcp] at k1; simp at k1
    · rw [hcp] at k1
      simp only [Prod.mk.injEq, true_and] at k1
      exact ⟨k, by rw [k1.1, k1.2]⟩
  obtain ⟨k, hcopy⟩ := hcopy
  rw [hcopy] at c1 c3
  dsimp only at c1
  obtain ⟨s3, left, m2, l1, l2, l3, l4⟩ := f4 sizes c2 (c3 k rfl) P hP hidle h8 h7
  have hkept := body_kept hP h8 h7 f1 m2
  rw [h9] at hkept
  rw [← c1] at m2
  refine ⟨b, o, s3.inner, out', left, got ++ evs, _, h1, h2, ?_, k2, k3, l3, l4, rests_of_read hkept l2 g1, g4⟩
  have hfin : o.finish = (.ok r, s2) := by unfold OutgoingRequest.finish; rw [h4]; exact f1
  unfold printUse
  rw [hfin]; dsimp only
  rw [k1]; dsimp only
  rw [m2]; rfl

/-- On a connection where the CR LF was left, the request fails. -/
theorem print_stale {P : σ → Prop} (hr : Reliable c P) (idle : List Ev)
    (hP : ∀ s n, P s → idle <:+ trace (read s n).2 → P (read s n).2)
    {pr : Bytes → List Ev} {got : List Ev} {w : Bytes} {s : σ} (hs : Rests P pr idle ([13, 10].map .byte) got w s) (url : Url)
    (hu : Askable url) (path : Bytes) {κ : Type} {said : κ → List Ev → Prop} (k : κ) (rest : List (Ask × κ))
    (hserves : Serves said pr idle w got ((getOf url path, k) :: rest)) (out : ο) :
    ∃ b o s', HttpRequestBuilder.new c (HttpUrl.tryFrom { url with path }) .Get = .ok b ∧
      b.send s = .ok o ∧ printUse out o = ((.err .unexpectedEof, out), s') := by
  obtain ⟨b, o, s', evs, _, _, h1, h2, h3, _⟩ := roundTrip_after_crlf hr idle hP hs (getOf url path)
      ⟨hu.ascii, hu.scheme, hu.host, by simp [written, getOf], by simp [written, getOf]⟩ k rest hserves
  refine ⟨b, o, s', h1, h2, ?_⟩
  dsimp only [getOf] at h3
  unfold roundTrip at h3
  rw [perform] at h3
  dsimp only at h3
  unfold printUse
  rcases hf : o.finish with ⟨_ | _ | _, s2⟩ <;> rw [hf] at h3 <;> simp at h3
  obtain ⟨rfl, rfl⟩ := h3
  rfl

/-- One turn of the loop. -/
theorem fetch_one (N : StreamConnector ω α σ) (url : Url) (a : α) (path : Bytes)
    (haddr : ∀ w, (N.toStreamAddr { url with path } w).1 = .ok a) (cl : HttpClient α σ) (s : σ) (w : ω)
    (hs : poolGet a cl.streams = some s ∨ poolGet a cl.streams = none ∧
      (N.connect a (N.toStreamAddr { url with path } w).2).1 = .ok s) {out out' : ο} {b : HttpRequestBuilder c}
    {o : OutgoingRequest c σ} {res : Res Unit} {s' : σ}
    (h1 : HttpRequestBuilder.new c (HttpUrl.tryFrom { url with path }) .Get = .ok b) (h2 : b.send s = .ok o)
    (h3 : printUse out o = ((res, out'), s')) (paths : List Bytes) :
    ∃ cl' w', poolGet a cl'.streams = some s' ∧ fetchPaths c N url (path :: paths) cl w out =
      match res with
      | .ok _ => fetchPaths c N url paths cl' w' out'
      | .err e => (.err e, cl', w', out')
      | .panic => (.panic, cl', w', out') := by
  have hw := haddr w
  rcases hw1 : N.toStreamAddr { url with path } w with ⟨r, w1⟩
  rw [hw1] at hw
  dsimp only at hw
  subst hw
  have hs' : ∃ w2, (poolGet a cl.streams = some s ∧ w2 = w1) ∨
      (poolGet a cl.streams = none ∧ N.connect a w1 = (.ok s, w2)) := by
    rcases hs with h | ⟨h, hc⟩
    · exact ⟨w1, .inl ⟨h, rfl⟩⟩
    · rw [hw1] at hc
      exact ⟨(N.connect a w1).2, .inr ⟨h, Prod.ext hc rfl⟩⟩
  obtain ⟨w2, hs'⟩ := hs'
  obtain ⟨cl', e1, e2, _⟩ := exchange_on N (⟨false, some { url with path }, printUse out⟩ : Exchange c σ (Res Unit × ο)) cl w w1 w2
    { url with path } b rfl h1 a s hw1 hs'
  rw [h2] at e1 e2
  dsimp only at e1 e2
  rw [h3] at e1 e2
  refine ⟨cl', w2, e2, ?_⟩
  rw [fetch_step, e1]
  cases res <;> rfl

/-- The loop, for every list of paths, if nothing is left on the connection after chunked responses. -/
theorem fetch_prints {P : σ → Prop} (hr : Reliable c P) {Q : ο → Prop} (hq : Reliable c Q) (idle : List Ev)
    (hP : ∀ s n, P s → idle <:+ trace (read s n).2 → P (read s n).2) (hidle : ∀ b t, idle ≠ .byte b :: t)
    (N : StreamConnector ω α σ) (url : Url) (hu : Askable url) (a : α)
    (list : List (Bytes × AnyAnswer)) (haddr : ∀ x ∈ list, ∀ w, (N.toStreamAddr { url with path := x.1 } w).1 = .ok a)
    (ha : ∀ x ∈ list, x.2.Proper) (htog : ∀ x ∈ list.dropLast, ∀ b, x.2 = .chunked b → c.std = true ∧ Together P idle)
    (cl : HttpClient α σ) (s : σ) (w : ω)
    (hs : poolGet a cl.streams = some s ∨ poolGet a cl.streams = none ∧
      ∀ x, list.head? = some x → (N.connect a (N.toStreamAddr { url with path := x.1 } w).2).1 = .ok s)
    {pr : Bytes → List Ev} {got : List Ev} {wr : Bytes} (hrest : Rests P pr idle [] got wr s)
    (hserves : Serves (AnyAnswer.Sent c) pr idle wr got (list.map fun x => (getOf url x.1, x.2))) (out : ο) (ho : Q out) :
    ∃ cl' w' out', fetchPaths c N url (list.map (·.1)) cl w out = (.ok (), cl', w', out') ∧
      sent out' = sent out ++ (list.map (·.2.body)).flatten := by
  induction list generalizing cl s w out got wr with
  | nil => exact ⟨cl, w, out, rfl, by simp⟩
  | cons x list ih =>
    obtain ⟨path, ans⟩ := x
    have hs' : poolGet a cl.streams = some s ∨ poolGet a cl.streams = none ∧
        (N.connect a (N.toStreamAddr { url with path } w).2).1 = .ok s :=
      hs.imp id fun h => ⟨h.1, h.2 (path, ans) rfl⟩
    have hp := ha (path, ans) (by simp)
    obtain ⟨b, o, s', out', left, got', wr', h1, h2, h3, h4, h5, hl, h6, h7⟩ :
        ∃ b o s' out' left got' w', HttpRequestBuilder.new c (HttpUrl.tryFrom { url with path }) .Get = .ok b ∧
          b.send s = .ok o ∧ printUse out o = ((.ok (), out'), s') ∧ Q out' ∧ sent out' = sent out ++ ans.body ∧
          (list ≠ [] → left = []) ∧ Rests P pr idle left got' w' s' ∧
          Serves (AnyAnswer.Sent c) pr idle w' got' (list.map fun x => (getOf url x.1, x.2)) := by
      cases hans : ans with
      | sized ans' =>
        subst hans
        obtain ⟨b, o, s', out', got', wr', h1, h2, h3, h4, h5, h6, h7⟩ :=
          print_answered hr hq idle hP hidle hrest url hu path (said := AnyAnswer.Sent c) (.sized ans') ans' hp (fun _ h => h) _
            hserves out ho
        exact ⟨b, o, s', out', [], got', wr', h1, h2, h3, h4, h5, fun _ => rfl, h6, h7⟩
      | chunked ans' =>
        subst hans
        obtain ⟨b, o, s', out', left, got', wr', h1, h2, h3, h4, h5, _, h8, h6, h7⟩ :=
          print_chunked hr hq idle hP hidle hrest url hu path (said := AnyAnswer.Sent c) (.chunked ans') ans' hp (fun _ h => h) _
            hserves out ho
        refine ⟨b, o, s', out', _, got', wr', h1, h2, h3, h4, h5, fun hne => ?_, h6, h7⟩
        obtain ⟨g1, g2⟩ := htog (path, .chunked ans') (by
          cases list with
          | nil => exact absurd rfl hne
          | cons => simp) ans' rfl
        rw [h8 g1 g2]; rfl
    obtain ⟨cl', w2, e2, e1⟩ := fetch_one N url a path (haddr (path, ans) (by simp)) cl s w hs' h1 h2 h3 (list.map (·.1))
    rw [List.map_cons, e1]
    dsimp only
    by_cases hne : list = []
    · subst hne
      exact ⟨cl', w2, out', rfl, by rw [h5]; simp⟩
    · rw [hl hne] at h6
      obtain ⟨cl2, w3, out2, i1, i2⟩ := ih (fun x hx => haddr x (by simp [hx])) (fun x hx => ha x (by simp [hx]))
        (fun x hx => htog x (by rw [List.dropLast_cons_of_ne_nil hne]; simp [hx])) cl' s' w2 (.inl e2) h6 h7 out' h4
      exact ⟨cl2, w3, out2, i1, by rw [i2, h5]; simp⟩

/-- Without `std`, the loop ends after the first chunked response, unless it is the last. -/
theorem fetch_stops {P : σ → Prop} (hr : Reliable c P) {Q : ο → Prop} (hq : Reliable c Q) (idle : List Ev)
    (hP : ∀ s n, P s → idle <:+ trace (read s n).2 → P (read s n).2) (hidle : ∀ b t, idle ≠ .byte b :: t) (hc : c.std = false)
    (N : StreamConnector ω α σ) (url : Url) (hu : Askable url) (a : α)
    (list : List (Bytes × Answer)) (path path' : Bytes) (ans : ChunkedAnswer) (ans' : AnyAnswer) (after : List (Bytes × AnyAnswer))
    (haddr : ∀ p w, (N.toStreamAddr { url with path := p } w).1 = .ok a)
    (ha : ∀ x ∈ list, x.2.Proper) (hans : ans.Proper)
    (cl : HttpClient α σ) (s : σ) (w : ω)
    (hs : poolGet a cl.streams = some s ∨ poolGet a cl.streams = none ∧
      ∀ x, (list.map (·.1) ++ [path]).head? = some x → (N.connect a (N.toStreamAddr { url with path := x } w).2).1 = .ok s)
    {pr : Bytes → List Ev} {got : List Ev} {wr : Bytes} (hrest : Rests P pr idle [] got wr s)
    (hserves : Serves (AnyAnswer.Sent c) pr idle wr got ((list.map fun x => (getOf url x.1, .sized x.2)) ++
      (getOf url path, .chunked ans) :: (getOf url path', ans') :: after.map fun x => (getOf url x.1, x.2))) (out : ο) (ho : Q out) :
    ∃ cl' w' out', fetchPaths c N url (list.map (·.1) ++ path :: path' :: after.map (·.1)) cl w out =
        (.err .unexpectedEof, cl', w', out') ∧
      sent out' = sent out ++ (list.map (·.2.body)).flatten ++ chunkedData ans.chunks := by
  induction list generalizing cl s w out got wr with
  | nil =>
    obtain ⟨b, o, s', out', left, got', wr', h1, h2, h3, h4, h5, h8, _, h6, h7⟩ :=
      print_chunked hr hq idle hP hidle hrest url hu path (said := AnyAnswer.Sent c) (.chunked ans) ans hans (fun _ h => h) _
        hserves out ho
    rw [h8 hc] at h6
    obtain ⟨cl', w2, e2, e1⟩ := fetch_one N url a path (haddr path) cl s w (hs.imp id fun h => ⟨h.1, h.2 path rfl⟩) h1 h2 h3
      (path' :: after.map (·.1))
    obtain ⟨b', o', s'', k1, k2, k3⟩ := print_stale hr idle hP h6 url hu path' _ _ h7 out'
    obtain ⟨cl'', w3, _, e3⟩ := fetch_one N url a path' (haddr path') cl' s' w2 (.inl e2) k1 k2 k3 (after.map (·.1))
    exact ⟨cl'', w3, out', by rw [List.map_nil, List.nil_append, e1]; exact e3, by rw [h5]; simp⟩
  | cons x list ih =>
    obtain ⟨p, an⟩ := x
    obtain ⟨b, o, s', out', got', wr', h1, h2, h3, h4, h5, h6, h7⟩ :=
      print_answered hr hq idle hP hidle hrest url hu p (said := AnyAnswer.Sent c) (.sized an) an (ha (p, an) (by simp))
        (fun _ h => h) _ hserves out ho
    obtain ⟨cl', w2, e2, e1⟩ := fetch_one N url a p (haddr p) cl s w (hs.imp id fun h => ⟨h.1, h.2 p rfl⟩) h1 h2 h3
      (list.map (·.1) ++ path :: path' :: after.map (·.1))
    obtain ⟨cl2, w3, out2, i1, i2⟩ := ih (fun x hx => ha x (by simp [hx])) cl' s' w2 (.inl e2) h6 h7 out' h4
    exact ⟨cl2, w3, out2, by rw [List.map_cons, List.cons_append, e1]; exact i1, by rw [i2, h5]; simp⟩

/-- If the connection is idle, its peer answers each of the three requests with a response that is chunked or of declared
length, and the connection and standard output do not fail, the program prints the three bodies, one after the other,
whatever the statuses; if the first or second response is chunked: with `std`, if reads with a buffer of at least 8 KiB do not
stop right before or within the CR LF at the end of its body. It opens one connection: nothing is assumed about what another
attempt to connect would do. Missing for the full property: other segmentations of chunked responses, with which it fails
(`C108_chunked_false`, `C108_nostd_false`). -/
theorem C108_prints_partial {P : σ → Prop} (hr : Reliable c P) {Q : ο → Prop} (hq : Reliable c Q) (idle : List Ev)
    (hP : ∀ s n, P s → idle <:+ trace (read s n).2 → P (read s n).2) (hidle : ∀ b t, idle ≠ .byte b :: t)
    (N : StreamConnector ω α σ) (parse : Bytes → Option Url) (host : Bytes) (url : Url) (hparse : parse host = some url)
    (hu : Askable url) (a : α) (haddr : ∀ path w, (N.toStreamAddr { url with path } w).1 = .ok a) (w : ω) (s : σ)
    (hs : (N.connect a (N.toStreamAddr { url with path := utf8 "/" } w).2).1 = .ok s) (hPs : P s) (hfl : wire s = sent s)
    (hpend : trace s = idle) (a1 a2 a3 : AnyAnswer) (h1 : a1.Proper) (h2 : a2.Proper) (h3 : a3.Proper)
    (htog : ∀ b, a1 = .chunked b ∨ a2 = .chunked b → c.std = true ∧ Together P idle)
    (hserves : Serves (AnyAnswer.Sent c) (PeerSocket.peer s) idle (wire s) (PeerSocket.taken s)
      [(getOf url (utf8 "/"), a1), (getOf url (utf8 "/favicon.ico"), a2), (getOf url (utf8 "/robots.txt"), a3)])
    (out : ο) (ho : Q out) :
    ∃ cl' w' out', reuseProgram c N parse host w out = (.ok (), cl', w', out') ∧
      sent out' = sent out ++ a1.body ++ a2.body ++ a3.body := by
  rw [show utf8 "/" = b!"/" by decide +kernel] at hs hserves
  rw [show utf8 "/favicon.ico" = b!"/favicon.ico" by decide +kernel, show utf8 "/robots.txt" = b!"/robots.txt" by decide +kernel]
    at hserves
  obtain ⟨cl', w', out', g1, g2⟩ := fetch_prints hr hq idle hP hidle N url hu a
    [(b!"/", a1), (b!"/favicon.ico", a2), (b!"/robots.txt", a3)] (fun x _ w => haddr _ w)
    (by
      intro x hx
      simp only [List.mem_cons, List.not_mem_nil, or_false] at hx
      rcases hx with rfl | rfl | rfl <;> assumption)
    (by
      intro x hx b hb
      simp only [List.dropLast, List.mem_cons, List.not_mem_nil, or_false] at hx
      rcases hx with rfl | rfl
      · exact htog b (.inl hb)
      · exact htog b (.inr hb))
    HttpClient.new s w (.inr ⟨rfl, by rintro x hx; simp only [List.head?_cons, Option.some.injEq] at hx; subst hx; exact hs⟩)
    ⟨hPs, hfl, rfl, rfl, hpend, List.append_nil _⟩ hserves out ho
  refine ⟨cl', w', out', ?_, by rw [g2]; simp⟩
  unfold reuseProgram
  rw [hparse]
  exact g1

/-- Without `std` a chunked response that is not the last ends the program: the bodies up to it are printed, and then
comes an error, whatever the responses are and however they arrive. -/
theorem C108_nostd_false (hc : c.std = false) {P : σ → Prop} (hr : Reliable c P) {Q : ο → Prop} (hq : Reliable c Q) (idle : List Ev)
    (hP : ∀ s n, P s → idle <:+ trace (read s n).2 → P (read s n).2) (hidle : ∀ b t, idle ≠ .byte b :: t)
    (N : StreamConnector ω α σ) (parse : Bytes → Option Url) (host : Bytes) (url : Url) (hparse : parse host = some url)
    (hu : Askable url) (a : α) (haddr : ∀ path w, (N.toStreamAddr { url with path } w).1 = .ok a) (w : ω) (s : σ)
    (hs : (N.connect a (N.toStreamAddr { url with path := utf8 "/" } w).2).1 = .ok s) (hPs : P s) (hfl : wire s = sent s)
    (hpend : trace s = idle) (a1 a2 a3 : AnyAnswer) (h1 : a1.Proper) (h2 : a2.Proper)
    (hserves : Serves (AnyAnswer.Sent c) (PeerSocket.peer s) idle (wire s) (PeerSocket.taken s)
      [(getOf url (utf8 "/"), a1), (getOf url (utf8 "/favicon.ico"), a2), (getOf url (utf8 "/robots.txt"), a3)])
    (out : ο) (ho : Q out) :
    (∀ b, a1 = .chunked b → ∃ cl' w' out', reuseProgram c N parse host w out = (.err .unexpectedEof, cl', w', out') ∧
      sent out' = sent out ++ a1.body) ∧
    (∀ b1 b2, a1 = .sized b1 → a2 = .chunked b2 →
      ∃ cl' w' out', reuseProgram c N parse host w out = (.err .unexpectedEof, cl', w', out') ∧
        sent out' = sent out ++ a1.body ++ a2.body) := by
  rw [show utf8 "/" = b!"/" by decide +kernel] at hs hserves
  rw [show utf8 "/favicon.ico" = b!"/favicon.ico" by decide +kernel, show utf8 "/robots.txt" = b!"/robots.txt" by decide +kernel]
    at hserves
  constructor
  · rintro b rfl
    obtain ⟨cl', w', out', g1, g2⟩ := fetch_stops hr hq idle hP hidle hc N url hu a [] b!"/" b!"/favicon.ico" b a2
      [(b!"/robots.txt", a3)] haddr (by simp) h1 HttpClient.new s w
      (.inr ⟨rfl, by rintro x hx; simp only [List.map_nil, List.nil_append, List.head?_cons, Option.some.injEq] at hx; subst hx; exact hs⟩)
      ⟨hPs, hfl, rfl, rfl, hpend, List.append_nil _⟩ hserves out ho
    refine ⟨cl', w', out', ?_, by rw [g2]; simp [AnyAnswer.body]⟩
    unfold reuseProgram
    rw [hparse]
    exact g1
  · rintro b1 b2 rfl rfl
    obtain ⟨cl', w', out', g1, g2⟩ := fetch_stops hr hq idle hP hidle hc N url hu a [(b!"/", b1)] b!"/favicon.ico" b!"/robots.txt" b2 a3
      [] haddr (by simp only [List.mem_cons, List.not_mem_nil, or_false]; rintro x rfl; exact h1) h2 HttpClient.new s w
      (.inr ⟨rfl, by rintro x hx; simp only [List.map_cons, List.cons_append, List.head?_cons, Option.some.injEq] at hx; subst hx; exact hs⟩)
      ⟨hPs, hfl, rfl, rfl, hpend, List.append_nil _⟩ hserves out ho
    refine ⟨cl', w', out', ?_, by rw [g2]; simp [AnyAnswer.body]⟩
    unfold reuseProgram
    rw [hparse]
    exact g1

/-- If its argument is not a URL, or one of another scheme, the program says so; it prints nothing and connects nowhere. -/
theorem C108_refused (N : StreamConnector ω α σ) (parse : Bytes → Option Url) (host : Bytes) (w : ω) (out : ο) :
    (parse host = none → reuseProgram c N parse host w out = (.err .parse, HttpClient.new, w, out)) ∧
    ∀ url, parse host = some url → AsciiText url.scheme → ¬ PlainHttp url → ¬ SecureHttp url →
      reuseProgram c N parse host w out = (.err .parse, HttpClient.new, w, out) := by
  constructor
  · intro h; unfold reuseProgram; rw [h]
  · intro url h hs h1 h2
    have hb : ∀ path, HttpRequestBuilder.new c (HttpUrl.tryFrom { url with path }) .Get = .err .parse := fun path => by
      rw [((C40_accepted { url with path } hs).2.1).2 (fun h => h.elim h1 h2)]
      rfl
    unfold reuseProgram fetchPaths HttpClient.get HttpClient.request
    rw [h]
    dsimp only
    rw [hb]

/-- Witness for `C108_refused`: a text that is no URL, and `ftp://h/`. -/
example (N : StreamConnector ω α σ) (w : ω) (out : ο) :
    reuseProgram c N (fun _ => none) b!"h" w out = (.err .parse, HttpClient.new, w, out) ∧
    reuseProgram c N (fun _ => some ⟨b!"ftp", some b!"h", none, b!"/", none, none, [], none⟩) b!"ftp://h/" w out =
      (.err .parse, HttpClient.new, w, out) :=
  ⟨(C108_refused N _ _ w out).1 rfl,
    (C108_refused N _ _ w out).2 _ rfl (by unfold AsciiText; decide)
      (fun h => absurd ((sameText_iff_upper (by unfold AsciiText; decide) (by unfold AsciiText; decide +kernel)).1 h) (by decide +kernel))
      (fun h => absurd ((sameText_iff_upper (by unfold AsciiText; decide) (by unfold AsciiText; decide +kernel)).1 h) (by decide +kernel))⟩

end

/-- A peer that answers the three requests of the program (of 61, 72 and 71 bytes). -/
def threeReplies (a1 a2 a3 : Bytes) (seg : Nat) : Talker := script 61 [a1, a2, a3] none seg

/-- A request of the program. -/
theorem getOf_bytes {path bytes : Bytes} (h : (getOf sampleUrl path).Bytes bytes) :
    bytes = requestHead .Get (requestTarget { sampleUrl with path, query := none }) (standardHeaders .Get b!"h") := by
  obtain ⟨host, h1, h2⟩ := h
  simp only [getOf, sampleUrl, Option.some.injEq] at h1
  subst h1
  rw [if_neg (by simp [getOf])] at h2
  exact h2

/-- This peer answers the three requests. -/
theorem threeReplies_serve (c : Cfg) (a1 a2 a3 : AnyAnswer) (seg : Nat) :
    let s := threeReplies (anyBytes a1) (anyBytes a2) (anyBytes a3) seg
    Serves (AnyAnswer.Sent c) (PeerSocket.peer s) (idleEvs none) (wire s) (PeerSocket.taken s)
      [(getOf sampleUrl (utf8 "/"), a1), (getOf sampleUrl (utf8 "/favicon.ico"), a2), (getOf sampleUrl (utf8 "/robots.txt"), a3)] := by
  have hsent : ∀ a : AnyAnswer, a.Sent c ((anyBytes a).map .byte) := by
    intro a
    cases a with
    | sized a => exact answer_sent c a
    | chunked a => exact chunkedAnswer_sent c a
  have hsaid : ∀ w : Bytes, PeerSocket.peer (script 61 [anyBytes a1, anyBytes a2, anyBytes a3]
      none seg) w = (([anyBytes a1, anyBytes a2, anyBytes a3].take (w.length / 61)).flatten).map .byte :=
    fun w => List.append_nil _
  show Serves _ (PeerSocket.peer (script 61 _ none seg)) _ [] (PeerSocket.taken (script 61 _ none seg)) _
  rw [script_taken]
  have l1 : (requestHead .Get (requestTarget { sampleUrl with path := utf8 "/", query := none }) (standardHeaders .Get b!"h")).length = 61 := by
    decide +kernel
  have l2 : (requestHead .Get (requestTarget { sampleUrl with path := utf8 "/favicon.ico", query := none }) (standardHeaders .Get b!"h")).length = 72 := by
    decide +kernel
  have l3 : (requestHead .Get (requestTarget { sampleUrl with path := utf8 "/robots.txt", query := none }) (standardHeaders .Get b!"h")).length = 71 := by
    decide +kernel
  intro x1 k1
  have k1 := congrArg List.length (getOf_bytes k1)
  rw [l1] at k1
  refine ⟨(anyBytes a1).map .byte, ?_, hsent _, ?_⟩
  · rw [hsaid]; simp [k1, idleEvs]
  intro x2 k2
  have k2 := congrArg List.length (getOf_bytes k2)
  rw [l2] at k2
  refine ⟨(anyBytes a2).map .byte, ?_, hsent _, ?_⟩
  · rw [hsaid]; simp [k1, k2, idleEvs]
  intro x3 k3
  have k3 := congrArg List.length (getOf_bytes k3)
  rw [l3] at k3
  refine ⟨(anyBytes a3).map .byte, ?_, hsent _, trivial⟩
  rw [hsaid]; simp [k1, k2, k3, idleEvs]

/-- Witness for `C108_prints_partial`, for all bodies: the peer sends them in segments of any size. -/
example (c : Cfg) (b1 b2 b3 : Bytes) (h1 : b1.length < 2 ^ 64) (h2 : b2.length < 2 ^ 64) (h3 : b3.length < 2 ^ 64) (seg : Nat) :
    let _ := asciiCase
    ∃ cl' w' out', reuseProgram c
        (oneConnector (threeReplies (answerBytes (okAnswer b1)) (answerBytes (okAnswer b2)) (answerBytes (okAnswer b3)) seg))
        (fun _ => some sampleUrl) b!"https://h:8443" () (⟨[], 0, []⟩ : Sink) = (.ok (), cl', w', out') ∧
      out'.got = b1 ++ b2 ++ b3 := by
  intro _
  obtain ⟨P, hr, hP, hidle, hPs, hfl, hpend⟩ := script_setting c 61
    [answerBytes (okAnswer b1), answerBytes (okAnswer b2), answerBytes (okAnswer b3)] none seg
  exact C108_prints_partial hr (sink_reliable c) _ hP hidle
    (oneConnector (threeReplies (answerBytes (okAnswer b1)) (answerBytes (okAnswer b2)) (answerBytes (okAnswer b3)) seg))
    (fun _ => some sampleUrl) b!"https://h:8443" sampleUrl rfl sampleUrl_askable () (fun _ _ => rfl) () _ rfl hPs hfl hpend
    (.sized (okAnswer b1)) (.sized (okAnswer b2)) (.sized (okAnswer b3)) (okAnswer_proper _ h1) (okAnswer_proper _ h2)
    (okAnswer_proper _ h3) (by rintro b (h | h) <;> cases h) (threeReplies_serve c (.sized (okAnswer b1)) (.sized (okAnswer b2)) (.sized (okAnswer b3)) seg) ⟨[], 0, []⟩ (by simp)

/-- Witness for `C108_prints_partial`: three chunked responses, each in one segment, with `std`. -/
example : let _ := asciiCase
    ∃ cl' w' out', reuseProgram ⟨true⟩
        (oneConnector (threeReplies (chunkedAnswerBytes chunkedAnswer) (chunkedAnswerBytes chunkedAnswer)
          (chunkedAnswerBytes chunkedAnswer) 8191))
        (fun _ => some sampleUrl) b!"https://h:8443" () (⟨[], 0, []⟩ : Sink) = (.ok (), cl', w', out') ∧
      out'.got = b!"abcabcabc" := by
  intro _
  obtain ⟨P, hr, hP, hidle, hPs, hfl, hpend, htog⟩ := script_together ⟨true⟩ 61
    [chunkedAnswerBytes chunkedAnswer, chunkedAnswerBytes chunkedAnswer, chunkedAnswerBytes chunkedAnswer] none 8191 (by omega)
    (by decide +kernel)
  exact C108_prints_partial hr (sink_reliable _) _ hP hidle
    (oneConnector (threeReplies (chunkedAnswerBytes chunkedAnswer) (chunkedAnswerBytes chunkedAnswer)
          (chunkedAnswerBytes chunkedAnswer) 8191))
    (fun _ => some sampleUrl) b!"https://h:8443" sampleUrl rfl sampleUrl_askable () (fun _ _ => rfl) () _ rfl hPs hfl hpend
    (.chunked chunkedAnswer) (.chunked chunkedAnswer) (.chunked chunkedAnswer) chunkedAnswer_proper chunkedAnswer_proper
    chunkedAnswer_proper (fun _ _ => ⟨rfl, htog⟩) (threeReplies_serve ⟨true⟩ (.chunked chunkedAnswer) (.chunked chunkedAnswer) (.chunked chunkedAnswer) 8191) ⟨[], 0, []⟩ (by simp)

/-- Witness for `C108_nostd_false`: a response of declared length, then a chunked one. -/
example (seg : Nat) : let _ := asciiCase
    ∃ cl' w' out', reuseProgram ⟨false⟩
        (oneConnector (threeReplies (answerBytes (okAnswer b!"hi")) (chunkedAnswerBytes chunkedAnswer)
          (answerBytes (okAnswer b!"txt")) seg))
        (fun _ => some sampleUrl) b!"https://h:8443" () (⟨[], 0, []⟩ : Sink) = (.err .unexpectedEof, cl', w', out') ∧
      out'.got = b!"hiabc" := by
  intro _
  obtain ⟨P, hr, hP, hidle, hPs, hfl, hpend⟩ := script_setting ⟨false⟩ 61
    [answerBytes (okAnswer b!"hi"), chunkedAnswerBytes chunkedAnswer, answerBytes (okAnswer b!"txt")] none seg
  exact (C108_nostd_false rfl hr (sink_reliable _) _ hP hidle
    (oneConnector (threeReplies (answerBytes (okAnswer b!"hi")) (chunkedAnswerBytes chunkedAnswer)
          (answerBytes (okAnswer b!"txt")) seg))
    (fun _ => some sampleUrl) b!"https://h:8443" sampleUrl rfl sampleUrl_askable () (fun _ _ => rfl) () _ rfl hPs hfl hpend
    (.sized (okAnswer b!"hi")) (.chunked chunkedAnswer) (.sized (okAnswer b!"txt")) (okAnswer_proper _ (by decide))
    chunkedAnswer_proper (threeReplies_serve ⟨false⟩ (.sized (okAnswer b!"hi")) (.chunked chunkedAnswer) (.sized (okAnswer b!"txt")) seg) ⟨[], 0, []⟩ (by simp)).2 _ _ rfl rfl

/-- With a response in chunks it fails: the first body is printed; then, if the chunked response came byte by byte (and
without `std` in any case), the CR LF at its end is taken for the beginning of the second response, and the program ends with
an error. With `std` (which the program needs) all goes well if the end of the response comes in one segment. -/
theorem C108_chunked_false (c : Cfg) : let _ := asciiCase
    (match reuseProgram c (oneConnector (threeReplies (chunkedAnswerBytes chunkedAnswer) (answerBytes (okAnswer b!"ico"))
        (answerBytes (okAnswer b!"txt")) 0)) (fun _ => some sampleUrl) b!"https://h:8443" () (⟨[], 0, []⟩ : Sink) with
      | (.err .unexpectedEof, _, _, out) => decide (out.got = b!"abc")
      | _ => false) = true ∧
    (match reuseProgram c (oneConnector (threeReplies (chunkedAnswerBytes chunkedAnswer) (answerBytes (okAnswer b!"ico"))
        (answerBytes (okAnswer b!"txt")) 10000)) (fun _ => some sampleUrl) b!"https://h:8443" () (⟨[], 0, []⟩ : Sink) with
      | (.err .unexpectedEof, _, _, out) => decide (out.got = b!"abc" ∧ c.std = false)
      | (.ok (), _, _, out) => decide (out.got = b!"abcicotxt" ∧ c.std = true)
      | _ => false) = true := by
  obtain ⟨std⟩ := c
  cases std <;> decide +kernel

end HttpIo
