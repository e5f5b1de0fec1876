import Verif.Props.Desync

/-! C47: responses that the caller does not read to their end. -/

namespace HttpIo
open Spec

theorem innerNextT_head {c : Cfg} {t t' : List Ev} {line l : Bytes} (h : innerNextT c line t = (.ok (some l), t'))
    (hl : line ≠ []) : l.head? = line.head? := by
  induction t generalizing line with
  | nil => simp [innerNextT] at h
  | cons ev t ih =>
    cases ev with
    | fault e =>
      rw [innerNextT] at h
      split at h
      · exact ih h hl
      · simp at h
    | byte b =>
      rw [innerNextT] at h
      cases hs : lineStep (line ++ [b]) with
      | none =>
        rw [hs] at h; dsimp only at h
        rw [ih h (by simp)]
        cases line with
        | nil => exact absurd rfl hl
        | cons => rfl
      | some r =>
        rw [hs] at h; dsimp only at h
        simp only [Prod.mk.injEq] at h
        rw [h.1] at hs
        unfold lineStep at hs
        split at hs
        · dsimp only at hs
          simp only [Option.some.injEq] at hs
          split at hs
          · simp at hs
          · rename_i hne
            split at hs
            · simp only [Except.ok.injEq, Option.some.injEq] at hs
              rw [← hs]
              rw [← hs] at *
              cases line with
              | nil => exact absurd rfl hl
              | cons x xs =>
                cases hk : (x :: xs ++ [b]).length - 2 with
                | zero => rw [hk] at hne; simp at hne
                | succ k => simp
            · simp at hs
        · simp at hs

theorem HttpVersion.fromStr_head {s : Bytes} {v : HttpVersion} (h : HttpVersion.fromStr s = .ok v) : s.head? = some 72 := by
  unfold HttpVersion.fromStr at h
  rcases he : (Parser.new s).expect b!"HTTP/" with ⟨r, p⟩
  rw [he] at h
  cases r with
  | err => simp at h
  | panic => simp at h
  | ok u =>
    unfold Parser.expect Parser.new at he
    dsimp only at he
    split at he
    · simp at he
    · split at he
      · rename_i act hact
        split at he
        · simp at he
        · rename_i hne
          have hact' : act = b!"HTTP/" := Classical.not_not.1 hne
          unfold slice at hact
          split at hact
          · simp only [Res.ok.injEq] at hact
            rw [hact'] at hact
            cases s with
            | nil => simp at hact
            | cons x xs =>
              have := congrArg List.head? hact
              rw [List.drop_zero] at this
              cases hk : min (x :: xs).length (0 + List.length b!"HTTP/") - 0 with
              | zero => rw [hk] at this; simp at this
              | succ k => rw [hk] at this; simpa using this
          · simp at hact
      · simp at he
      · simp at he


theorem parseStatusLine_head {l : Bytes} {x : HttpVersion × HttpStatus} (h : parseStatusLine l = .ok x) :
    l.head? = some 72 := by
  unfold parseStatusLine at h
  rcases ht : (Parser.new l).parseToken with ⟨r, p⟩
  rw [ht] at h
  cases r with
  | err => simp at h
  | panic => simp at h
  | ok tok =>
    dsimp only at h
    cases hv : HttpVersion.fromStr tok with
    | err => rw [hv] at h; simp at h
    | panic => rw [hv] at h; simp at h
    | ok v =>
      have hh := HttpVersion.fromStr_head hv
      unfold Parser.parseToken Parser.new at ht
      dsimp only at ht
      split at ht
      · simp at ht
      · split at ht
        · rename_i rem hrem
          unfold sliceFrom slice at hrem
          split at hrem
          · simp only [Res.ok.injEq] at hrem
            split at ht
            · simp only [Prod.mk.injEq, Res.ok.injEq] at ht
              rw [← ht.1] at hh
              rw [← hrem] at hh
              simp only [List.drop_zero, Nat.sub_zero, List.take_length] at hh
              cases l with
              | nil => simp at hh
              | cons y ys =>
                rw [List.takeWhile_cons] at hh
                split at hh
                · simpa using hh
                · simp at hh
            · simp at ht
            · simp at ht
          · simp at hrem
        · simp at ht
        · simp at ht

section
variable [CaseMap] {c : Cfg} {ω α σ : Type} [DecidableEq α] [PeerSocket σ] [ZeroReader σ]

omit [DecidableEq α] in
/-- What does not begin with an `H` is not a response. -/
theorem response_not_http {s : σ} {b : UInt8} {t : List Ev} (hb : b ≠ 72) (ht : trace s = .byte b :: t) :
    ∀ r s', HttpResponse.deserialize c s ≠ (.ok r, s') := by
  intro r s' h
  unfold HttpResponse.deserialize parseHead expectNext at h
  rcases hi : innerNext c s with ⟨_ | _ | l, s1⟩
  · rw [hi] at h; simp at h
  · rw [hi] at h; simp at h
  · rw [hi] at h; dsimp only at h
    have hT := innerNextLoop_trace c [] s
    rw [show innerNextLoop c [] s = innerNext c s from rfl, hi, ht, innerNextT, List.nil_append] at hT
    dsimp only at hT
    have hnone : lineStep [b] = none := by unfold lineStep; rw [if_neg (by simp)]
    rw [hnone] at hT
    have hh := innerNextT_head hT.symm (by simp)
    cases hp : parseStatusLine l with
    | err => rw [hp] at h; simp at h
    | panic => rw [hp] at h; simp at h
    | ok x =>
      have := parseStatusLine_head hp
      rw [hh] at this
      simp at this
      exact hb this

/-- Reading a delimited body, however little of it. -/
theorem limited_some {ρ : Type} [LawfulReader ρ] [ZeroReader ρ] (u : ρ) (body : Bytes) (idle : List Ev)
    (hu : trace u = body.map .byte ++ idle) (sizes : List Nat) (hp : Positive sizes) :
    ∃ s left, received (calls (HttpBody.Limited ⟨u, body.length⟩ : HttpBody c ρ) sizes).1 ++ left = body ∧
      (∀ e, .error e ∉ (calls (HttpBody.Limited ⟨u, body.length⟩ : HttpBody c ρ) sizes).1) ∧
      (calls (HttpBody.Limited ⟨u, body.length⟩ : HttpBody c ρ) sizes).2.under = some s ∧ trace s = left.map .byte ++ idle := by
  have hnew := limited_new c none (by simp) body.length u
  have hy := C29_yields c none (by simp) body.length u body idle hu (.inr (Nat.le_refl _)) sizes hp
  obtain ⟨_, _, s, h3, h4, _⟩ := C29_exact c none (by simp) body.length u sizes hp
  rw [hnew] at hy h3 h4
  rw [List.take_length] at hy
  generalize hrs : (calls (HttpBody.Limited ⟨u, body.length⟩ : HttpBody c ρ) sizes).1 = rs at *
  obtain ⟨xs, left, e1, e2⟩ : ∃ (xs : List Bytes) (left : Bytes), rs = xs.map .ok ∧ xs.flatten ++ left = body := by
    rcases hy with ⟨p, ⟨xs, e1, e2, e3⟩, ⟨left, e4⟩, _⟩ | ⟨rs', k, e1, xs, e2, e3, e4⟩
    · exact ⟨xs, left, e1, by rw [e3]; exact e4⟩
    · refine ⟨xs ++ List.replicate (k + 1) [], [], by rw [e1, e2]; simp, by simp [e4]⟩
  refine ⟨s, left, by rw [e1, received_map]; exact e2, by rw [e1]; simp, h3, ?_⟩
  have hseen : seen rs = xs.flatten.map .byte := by
    rw [e1]
    clear e1 e2
    induction xs with
    | nil => rfl
    | cons x xs ih => rw [List.map_cons, seen, ih]; simp
  rw [hseen, hu, ← e2, List.map_append, List.append_assoc] at h4
  exact (List.append_cancel_left h4).symm

/-- A request whose response is read as far as the caller likes. -/
theorem roundTrip_some {P : σ → Prop} (hr : Reliable c P) (idle : List Ev)
    (hP : ∀ s n, P s → idle <:+ trace (read s n).2 → P (read s n).2) (hidle : ∀ b t, idle ≠ .byte b :: t)
    {κ : Type} {said : κ → List Ev → Prop} {pr : Bytes → List Ev} {got : List Ev} {w : Bytes} {s : σ}
    (hs : Rests P pr idle [] got w s) (q : Ask) (hq : q.Proper) (k : κ) (a : Answer) (ha : a.Proper)
    (hsaid : ∀ evs, said k evs → a.Sent c evs) (hsizes : Positive q.sizes) (rest : List (Ask × κ))
    (hserves : Serves said pr idle w got ((q, k) :: rest)) :
    ∃ b o s' st rs unread left got' w',
      HttpRequestBuilder.new c (HttpUrl.tryFrom q.url) (if q.put then .Put else .Get) = .ok b ∧
      b.send s = .ok o ∧ roundTrip q.writes q.sizes o = (.got st a.headers rs, s') ∧
      st = HttpStatus.fromCode a.status.toCode ∧ rs.length = q.sizes.length ∧ received rs ++ unread = a.body ∧
      left <:+ unread ∧
      (c.std = false ∨ q.sizes = [] → left = unread) ∧
      Rests P pr idle (left.map .byte) got' w' s' ∧ Serves said pr idle w' got' rest := by
  obtain ⟨rfl, rfl⟩ : pr = PeerSocket.peer s ∧ w = wire s := ⟨hs.peer.symm, hs.wire.symm⟩
  obtain ⟨b, o, o', s1, bytes, evs, h1, h2, h3, h4, h6, h7, h8, h9, g1, g2, htr, g4⟩ :=
    request_heard hr s hs.fine hs.flushed q hq hs.taken hserves
  obtain ⟨hd, g2, g3⟩ := hsaid _ g2
  obtain ⟨pre, e1, e2⟩ := g3.suffix
  rw [List.append_nil] at e1
  have hdel : Delivers c (trace s1) (responseHead a.status.display a.headers.entries) (a.body.map .byte ++ idle) := by
    rw [htr, g2, e1, List.nil_append, List.append_assoc]; exact e2 _
  obtain ⟨r, s2, f1, f2, _, f3, f4, f5, f6⟩ := response_delivered c s1 a.status a.headers _ ha.sendable
    (FramedBy.lengthOk ha.sendable.1 ha.framed) hdel
  have hfr := framedBy_unique ha.sendable.1 f4 ha.framed
  have hbody : r.body = .Limited ⟨BufReader.new c s2, a.body.length⟩ := by
    cases hb : r.body with
    | Chunked i => rw [hb] at hfr; simp [framing] at hfr
    | ReadTilClose i => rw [hb] at hfr; simp [framing] at hfr
    | Limited t =>
      rw [hb] at hfr f5
      obtain ⟨i, l⟩ := t
      simp only [framing, Framing.limited.injEq] at hfr
      simp only [HttpBody.under, Option.some.injEq] at f5
      rw [hfr, f5]
  obtain ⟨s3, unread, k1, _, k2, k3⟩ := limited_some (c := c) (BufReader.new c s2) a.body idle
    (by rw [BufReader.trace_new, f6]) q.sizes hsizes
  have hnone : q.sizes = [] → trace s3.inner = unread.map .byte ++ idle := by
    intro he
    rw [he] at k2
    simp only [calls, HttpBody.under, Option.some.injEq] at k2
    rw [← k2] at k3 ⊢
    rw [BufReader.trace_new] at k3
    exact k3
  rw [← hbody] at k1 k2
  obtain ⟨left, l1, l2, l3⟩ := bufReader_left s3 unread idle hidle k3
  have hkept := body_kept hP h8 h7 f1 k2
  rw [h9] at hkept
  refine ⟨b, o, s3.inner, r.status, _, unread, left, got ++ evs, _, h1, h2, by rw [roundTrip_got h3 h4 f1 k2, f3], f2,
    calls_length _ _, k1, l1,
    ?_, rests_of_read hkept l2 g1, g4⟩
  rintro (h | h)
  · exact l3 h
  · rw [hnone h] at l2
    have := (List.append_cancel_right l2).symm
    exact (List.map_inj_right (fun x y h => by simpa using h)).1 this

/-- The next request when bytes are left that do not begin like a response. -/
theorem roundTrip_garbage {P : σ → Prop} (hr : Reliable c P) (idle : List Ev)
    {κ : Type} {said : κ → List Ev → Prop} {pr : Bytes → List Ev} {got : List Ev} {w : Bytes} {s : σ} {x : UInt8} {xs : Bytes}
    (hs : Rests P pr idle ((x :: xs).map .byte) got w s) (hx : x ≠ 72) (q : Ask) (hq : q.Proper) (k : κ)
    (rest : List (Ask × κ)) (hserves : Serves said pr idle w got ((q, k) :: rest)) :
    ∃ b o s' out, HttpRequestBuilder.new c (HttpUrl.tryFrom q.url) (if q.put then .Put else .Get) = .ok b ∧
      b.send s = .ok o ∧ roundTrip q.writes q.sizes o = (out, s') ∧ ∀ st h rs, out ≠ .got st h rs := by
  obtain ⟨rfl, rfl⟩ : pr = PeerSocket.peer s ∧ w = wire s := ⟨hs.peer.symm, hs.wire.symm⟩
  obtain ⟨b, o, o', s1, bytes, evs, h1, h2, h3, h4, h6, h7, h8, h9, g1, g2, htr, g4⟩ :=
    request_heard hr s hs.fine hs.flushed q hq hs.taken hserves
  refine ⟨b, o, (roundTrip q.writes q.sizes o).2, (roundTrip q.writes q.sizes o).1, h1, h2, rfl, ?_⟩
  have hno := response_not_http (c := c) hx (s := s1) (t := xs.map .byte ++ evs ++ idle) (by rw [htr]; simp)
  intro st h rs
  have hfin : o'.finish = HttpResponse.deserialize c s1 := by unfold OutgoingRequest.finish; rw [h4]
  unfold roundTrip
  rw [h3]; dsimp only
  rw [hfin]
  rcases hd : HttpResponse.deserialize c s1 with ⟨_ | _ | _, s2⟩
  · exact absurd hd (hno _ _)
  · simp
  · simp

/-- The next request when bytes are left that begin with a whole response. -/
theorem roundTrip_forged {P : σ → Prop} (hr : Reliable c P) (idle : List Ev)
    {κ : Type} {said : κ → List Ev → Prop} {pr : Bytes → List Ev} {got : List Ev} {w : Bytes} {s : σ} (f : Answer) (hf : f.Proper)
    (junk : Bytes)
    (hs : Rests P pr idle ((responseHead f.status.display f.headers.entries ++ f.body ++ junk).map .byte) got w s)
    (q : Ask) (hq : q.Proper) (hsizes : Positive q.sizes) (hlen : f.body.length ≤ q.sizes.length) (k : κ)
    (rest : List (Ask × κ)) (hserves : Serves said pr idle w got ((q, k) :: rest)) :
    ∃ b o s' st rs, HttpRequestBuilder.new c (HttpUrl.tryFrom q.url) (if q.put then .Put else .Get) = .ok b ∧
      b.send s = .ok o ∧ roundTrip q.writes q.sizes o = (.got st f.headers rs, s') ∧
      st = HttpStatus.fromCode f.status.toCode ∧ ReadAll rs f.body := by
  obtain ⟨rfl, rfl⟩ : pr = PeerSocket.peer s ∧ w = wire s := ⟨hs.peer.symm, hs.wire.symm⟩
  obtain ⟨b, o, o', s1, bytes, evs, h1, h2, h3, h4, h6, h7, h8, h9, g1, g2, htr, g4⟩ :=
    request_heard hr s hs.fine hs.flushed q hq hs.taken hserves
  have hdel : Delivers c (trace s1) (responseHead f.status.display f.headers.entries)
      (f.body.map .byte ++ (junk.map .byte ++ (evs ++ idle))) := by
    rw [htr]
    have := delivers_map c (responseHead f.status.display f.headers.entries)
      (f.body.map .byte ++ (junk.map .byte ++ (evs ++ idle)))
    simpa using this
  obtain ⟨r, s2, f1, f2, _, f3, f4, f5, f6⟩ := response_delivered c s1 f.status f.headers _ hf.sendable
    (FramedBy.lengthOk hf.sendable.1 hf.framed) hdel
  have hfr := framedBy_unique hf.sendable.1 f4 hf.framed
  have hbody : r.body = .Limited ⟨BufReader.new c s2, f.body.length⟩ := by
    cases hb : r.body with
    | Chunked i => rw [hb] at hfr; simp [framing] at hfr
    | ReadTilClose i => rw [hb] at hfr; simp [framing] at hfr
    | Limited t =>
      rw [hb] at hfr f5
      obtain ⟨i, l⟩ := t
      simp only [framing, Framing.limited.injEq] at hfr
      simp only [HttpBody.under, Option.some.injEq] at f5
      rw [hfr, f5]
  obtain ⟨k1, s3, k2, k3⟩ := limited_read (c := c) (BufReader.new c s2) f.body (junk.map .byte ++ (evs ++ idle))
    (by rw [BufReader.trace_new, f6]) q.sizes hsizes hlen
  rw [← hbody] at k1 k2
  exact ⟨b, o, s3.inner, r.status, _, h1, h2, by rw [roundTrip_got h3 h4 f1 k2, f3], f2, k1⟩

variable (N : StreamConnector ω α σ) (P : σ → Prop) (hr : Reliable c P) (idle : List Ev)
  (hP : ∀ s n, P s → idle <:+ trace (read s n).2 → P (read s n).2) (hidle : ∀ b t, idle ≠ .byte b :: t) (a : α)
  (cl : HttpClient α σ) (s : σ)
  (hs : poolGet a cl.streams = some s ∨ poolGet a cl.streams = none ∧ ∀ w, (N.connect a w).1 = .ok s)
  (hPs : P s) (hfl : wire s = sent s) (hpend : trace s = idle)

include hr hP hidle hs hPs hfl hpend

/-- What the request after a response of declared length gets, in all cases, if the caller has read that response as far
as it liked and dropped it. `unread` is what it did not read of the body; `left` is what of this is left on the
connection: all of it without `std` and if the caller did not read at all; some end of it with `std`. The next request
takes what is left for its response. -/
theorem C47_next (q1 q2 : Ask) (a1 a2 : Answer) (h1 : q1.Proper) (h2 : q2.Proper) (g1 : a1.Proper)
    (g2 : a2.Proper) (haddr1 : ∀ w, (N.toStreamAddr q1.url w).1 = .ok a) (haddr2 : ∀ w, (N.toStreamAddr q2.url w).1 = .ok a)
    (hp1 : Positive q1.sizes) (hp2 : Positive q2.sizes) (hlen2 : a2.body.length ≤ q2.sizes.length)
    (hserves : Serves (Answer.Sent c) (PeerSocket.peer s) idle (wire s) (PeerSocket.taken s) [(q1, a1), (q2, a2)]) (w : ω) :
    ∃ st1 rs1 out2 s1 unread left,
      (history (c := c) N [q1.exchange, q2.exchange] cl w).1 = [.ok (.got st1 a1.headers rs1), .ok out2] ∧
      st1.toCode = a1.status.toCode ∧ rs1.length = q1.sizes.length ∧ received rs1 ++ unread = a1.body ∧ left <:+ unread ∧
      (c.std = false ∨ q1.sizes = [] → left = unread) ∧
      poolGet a (history (c := c) N [q1.exchange] cl w).2.1.streams = some s1 ∧ trace s1 = left.map .byte ++ idle ∧
      (left = [] → ∃ st2 rs2, out2 = .got st2 a2.headers rs2 ∧ st2.toCode = a2.status.toCode ∧ ReadAll rs2 a2.body) ∧
      (∀ x xs, left = x :: xs → x ≠ 72 → ∀ st h rs, out2 ≠ .got st h rs) ∧
      ∀ f : Answer, f.Proper → f.body.length ≤ q2.sizes.length →
        ∀ junk, left = responseHead f.status.display f.headers.entries ++ f.body ++ junk →
        ∃ st2 rs2, out2 = .got st2 f.headers rs2 ∧ st2.toCode = f.status.toCode ∧ ReadAll rs2 f.body := by
  have hrest : Rests P (PeerSocket.peer s) idle [] (PeerSocket.taken s) (wire s) s :=
    ⟨hPs, hfl, rfl, rfl, hpend, List.append_nil _⟩
  obtain ⟨b, o, s', st, rs, unread, left, got', wr', e1, e2, e3, e4, elen, e5, e6, e7, e8, e9⟩ :=
    roundTrip_some hr idle hP hidle hrest q1 h1 _ a1 g1 (fun _ h => h) hp1 _ hserves
  obtain ⟨cl', w', x1, x2⟩ := exchange_step N q1 cl w a haddr1 hs e1 e2 e3
  have hhist : ∀ out2 cl'' w'', exchange N (q2.exchange (c := c)) cl' w' = (.ok out2, cl'', w'') →
      (history (c := c) N [q1.exchange, q2.exchange] cl w).1 = [.ok (.got st a1.headers rs), .ok out2] := by
    intro out2 cl'' w'' h
    simp only [history]
    rw [x1]; dsimp only
    rw [h]
  have hpool : poolGet a (history (c := c) N [q1.exchange] cl w).2.1.streams = some s' := by
    simp only [history]
    rw [x1]; exact x2
  obtain ⟨b2, o2, _, _, _, _, f1, f2, _⟩ := request_heard hr s' e8.fine e8.flushed q2 h2 e8.taken
    (by rw [e8.peer, e8.wire]; exact e9)
  rcases hrt : roundTrip q2.writes q2.sizes o2 with ⟨out, sx⟩
  obtain ⟨cl'', w'', y1, _⟩ := exchange_step N q2 cl' w' a haddr2 (.inl x2) f1 f2 hrt
  have same : ∀ {b' o'}, HttpRequestBuilder.new c (HttpUrl.tryFrom q2.url) (if q2.put then .Put else .Get) = .ok b' →
      b'.send s' = .ok o' → o' = o2 := by
    intro b' o' hb ho
    rw [f1, Res.ok.injEq] at hb
    subst hb
    rw [f2, Except.ok.injEq] at ho
    exact ho.symm
  refine ⟨st, rs, _, s', unread, left, hhist _ _ _ y1, by rw [e4, C01_code_lossless], elen, e5, e6, e7, hpool, e8.pending, ?_, ?_, ?_⟩
  · rintro rfl
    obtain ⟨b3, o3, s3, st2, rs2, _, _, k1, k2, k3, k4, k5, _⟩ :=
      roundTrip_answered hr idle hP hidle e8 q2 h2 _ a2 g2 (fun _ h => h) hp2 hlen2 _ e9
    rw [same k1 k2, hrt, Prod.mk.injEq] at k3
    rw [k3.1]
    exact ⟨st2, rs2, rfl, by rw [k4, C01_code_lossless], k5⟩
  · rintro x xs rfl hx
    obtain ⟨b3, o3, s3, out, k1, k2, k3, k4⟩ := roundTrip_garbage hr idle e8 hx q2 h2 _ _ e9
    rw [same k1 k2, hrt, Prod.mk.injEq] at k3
    rw [k3.1]
    exact k4
  · rintro f hf hlen junk rfl
    obtain ⟨b3, o3, s3, st2, rs2, k1, k2, k3, k4, k5⟩ := roundTrip_forged hr idle f hf junk e8 q2 h2 hp2 hlen _ _ e9
    rw [same k1 k2, hrt, Prod.mk.injEq] at k3
    rw [k3.1]
    exact ⟨st2, rs2, rfl, by rw [k4, C01_code_lossless], k5⟩

/-- The property is false. If the caller drops a response without reading it and the body does not begin with an `H`,
the next request on the connection gets no response at all, with and without `std`. -/
theorem C47_unread_false (q1 q2 : Ask) (a1 a2 : Answer) (h1 : q1.Proper) (h2 : q2.Proper) (g1 : a1.Proper)
    (g2 : a2.Proper) (haddr1 : ∀ w, (N.toStreamAddr q1.url w).1 = .ok a) (haddr2 : ∀ w, (N.toStreamAddr q2.url w).1 = .ok a)
    (hp2 : Positive q2.sizes) (hlen2 : a2.body.length ≤ q2.sizes.length)
    (hserves : Serves (Answer.Sent c) (PeerSocket.peer s) idle (wire s) (PeerSocket.taken s) [(q1, a1), (q2, a2)]) (w : ω)
    (hunread : q1.sizes = []) (x : UInt8) (xs : Bytes) (hbody : a1.body = x :: xs) (hx : x ≠ 72) :
    ∀ st h rs, (history (c := c) N [q1.exchange, q2.exchange] cl w).1[1]? ≠ some (.ok (.got st h rs)) := by
  obtain ⟨st1, rs1, out2, s1, unread, left, e1, _, elen, e2, e3, e4, e5, e6, e7, e8, e9⟩ := C47_next N P hr idle hP hidle a cl s hs hPs
    hfl hpend q1 q2 a1 a2 h1 h2 g1 g2 haddr1 haddr2 (by rw [hunread]; simp [Positive]) hp2 hlen2 hserves w
  have hrs : received rs1 = [] := by
    rw [hunread] at elen
    rw [List.length_eq_zero_iff.1 elen]; rfl
  rw [hrs, List.nil_append] at e2
  intro st h rs hcon
  rw [e1] at hcon
  simp only [List.getElem?_cons_succ, List.getElem?_cons_zero, Option.some.injEq, Res.ok.injEq] at hcon
  exact e8 x xs (by rw [e4 (.inr hunread), e2, hbody]) hx st h rs hcon

/-- And worse: if the unread body is itself a response, the next request on the connection obtains that one, with
status, headers and body chosen by whoever chose the first body. -/
theorem C47_forged_false (q1 q2 : Ask) (a1 a2 : Answer) (h1 : q1.Proper) (h2 : q2.Proper) (g1 : a1.Proper)
    (g2 : a2.Proper) (haddr1 : ∀ w, (N.toStreamAddr q1.url w).1 = .ok a) (haddr2 : ∀ w, (N.toStreamAddr q2.url w).1 = .ok a)
    (hp2 : Positive q2.sizes) (hlen2 : a2.body.length ≤ q2.sizes.length)
    (hserves : Serves (Answer.Sent c) (PeerSocket.peer s) idle (wire s) (PeerSocket.taken s) [(q1, a1), (q2, a2)]) (w : ω)
    (hunread : q1.sizes = []) (f : Answer) (hf : f.Proper) (hlen : f.body.length ≤ q2.sizes.length)
    (hbody : a1.body = responseHead f.status.display f.headers.entries ++ f.body) :
    ∃ st rs, (history (c := c) N [q1.exchange, q2.exchange] cl w).1[1]? = some (.ok (.got st f.headers rs)) ∧
      st.toCode = f.status.toCode ∧ ReadAll rs f.body := by
  obtain ⟨st1, rs1, out2, s1, unread, left, e1, _, elen, e2, e3, e4, e5, e6, e7, e8, e9⟩ := C47_next N P hr idle hP hidle a
    cl s hs hPs hfl hpend q1 q2 a1 a2 h1 h2 g1 g2 haddr1 haddr2 (by rw [hunread]; simp [Positive]) hp2 hlen2 hserves w
  have hrs : received rs1 = [] := by
    rw [hunread] at elen
    rw [List.length_eq_zero_iff.1 elen]; rfl
  rw [hrs, List.nil_append] at e2
  obtain ⟨st2, rs2, k1, k2, k3⟩ := e9 f hf hlen [] (by rw [e4 (.inr hunread), e2, hbody, List.append_nil])
  exact ⟨st2, rs2, by rw [e1, k1]; rfl, k2, k3⟩

/-- What does hold: if nothing of the dropped response is left on the connection, the next request obtains its own
response. That is so if the body was read to its end, and with `std` if the rest of it had arrived and was thrown away
with the reader. Missing for the full property: `HttpClient` does not discard the connection or the rest of the body. -/
theorem C47_abandoned_partial (q1 q2 : Ask) (a1 a2 : Answer) (h1 : q1.Proper) (h2 : q2.Proper) (g1 : a1.Proper)
    (g2 : a2.Proper) (haddr1 : ∀ w, (N.toStreamAddr q1.url w).1 = .ok a) (haddr2 : ∀ w, (N.toStreamAddr q2.url w).1 = .ok a)
    (hp1 : Positive q1.sizes) (hp2 : Positive q2.sizes) (hlen2 : a2.body.length ≤ q2.sizes.length)
    (hserves : Serves (Answer.Sent c) (PeerSocket.peer s) idle (wire s) (PeerSocket.taken s) [(q1, a1), (q2, a2)]) (w : ω)
    (hnone : (∀ s1, poolGet a (history (c := c) N [q1.exchange] cl w).2.1.streams = some s1 → trace s1 = idle) ∨
      ∀ st h rs, (history (c := c) N [q1.exchange] cl w).1 = [.ok (.got st h rs)] → (received rs).length = a1.body.length) :
    ∃ st rs, (history (c := c) N [q1.exchange, q2.exchange] cl w).1[1]? = some (.ok (.got st a2.headers rs)) ∧
      st.toCode = a2.status.toCode ∧ ReadAll rs a2.body := by
  obtain ⟨st1, rs1, out2, s1, unread, left, e1, _, elen, e2, e3, e4, e5, e6, e7, e8, e9⟩ := C47_next N P hr idle hP hidle a
    cl s hs hPs hfl hpend q1 q2 a1 a2 h1 h2 g1 g2 haddr1 haddr2 hp1 hp2 hlen2 hserves w
  have hl : left = [] := by
    rcases hnone with h | h
    · have := h s1 e5
      rw [e6] at this
      have := congrArg List.length this
      simp only [List.length_append, List.length_map] at this
      exact List.length_eq_zero_iff.1 (by omega)
    · have hone : (history (c := c) N [q1.exchange] cl w).1 = [.ok (.got st1 a1.headers rs1)] := by
        simp only [history] at e1 ⊢
        simpa using (List.cons.inj e1).1
      have := h _ _ _ hone
      rw [← e2, List.length_append] at this
      have hu : unread = [] := List.length_eq_zero_iff.1 (by omega)
      rw [hu] at e3
      exact List.suffix_nil.1 e3
  obtain ⟨st2, rs2, k1, k2, k3⟩ := e7 hl
  exact ⟨st2, rs2, by rw [e1, k1]; rfl, k2, k3⟩

end

/-- A peer with two answers. -/
def pairPeer (a1 a2 : Answer) (idle : Option Err) (seg : Nat) : Talker :=
  script 62 [answerBytes a1, answerBytes a2] idle seg

theorem pairPeer_serves (c : Cfg) (s1 s2 : List Nat) (a1 a2 : Answer) (idle : Option Err) (seg : Nat) :
    Serves (Answer.Sent c) (PeerSocket.peer (pairPeer a1 a2 idle seg)) (idleEvs idle)
      (wire (pairPeer a1 a2 idle seg)) (PeerSocket.taken (pairPeer a1 a2 idle seg))
      [(sampleAsk s1, a1), (sampleAsk s2, a2)] := by
  have := script_serves (Answer.Sent c) (n := 62) (by omega) idle seg
    [(sampleAsk s1, a1, answerBytes a1), (sampleAsk s2, a2, answerBytes a2)] ?_ ?_
  · rw [show PeerSocket.taken (pairPeer a1 a2 idle seg) = [] from script_taken _ _ _ _]
    exact this
  · intro x hx bytes hb
    simp only [List.mem_cons, List.not_mem_nil, or_false] at hx
    rcases hx with rfl | rfl <;> exact sampleAsk_bytes _ _ hb
  · intro x hx
    simp only [List.mem_cons, List.not_mem_nil, or_false] at hx
    rcases hx with rfl | rfl <;> exact answer_sent c _

/-- Witness for `C47_next` and `C47_unread_false`: the first response (`data`) is not read. -/
example (c : Cfg) (idle : Option Err) (seg : Nat) : let _ := asciiCase
    ∀ st h rs, (history (c := c) (oneConnector (pairPeer (okAnswer b!"data") (okAnswer b!"hi") idle seg))
      [(sampleAsk []).exchange, (sampleAsk [4, 4]).exchange] HttpClient.new ()).1[1]? ≠ some (.ok (.got st h rs)) := by
  obtain ⟨P, hr, hP, hidle, hPs, hfl, hpend⟩ := script_setting c 62
    [answerBytes (okAnswer b!"data"), answerBytes (okAnswer b!"hi")] idle seg
  exact @C47_unread_false asciiCase c Unit Unit Talker _ _ _ _ P hr _ hP hidle () HttpClient.new
    (pairPeer (okAnswer b!"data") (okAnswer b!"hi") idle seg) (.inr ⟨rfl, fun _ => rfl⟩) hPs hfl hpend (sampleAsk [])
    (sampleAsk [4, 4]) (okAnswer b!"data") (okAnswer b!"hi") (sampleAsk_proper _) (sampleAsk_proper _)
    (okAnswer_proper _ (by decide)) (okAnswer_proper _ (by decide)) (fun _ => rfl) (fun _ => rfl)
    (by unfold Positive sampleAsk; decide) (by decide)
    (pairPeer_serves c _ _ _ _ idle seg) () rfl 100 b!"ata" rfl (by decide)

/-- Witness for `C47_forged_false`: the body of the first response is a response with the body `evil`. -/
example (c : Cfg) (idle : Option Err) (seg : Nat) : let _ := asciiCase
    ∃ st rs, (history (c := c) (oneConnector (pairPeer (okAnswer (answerBytes (okAnswer b!"evil"))) (okAnswer b!"hi") idle seg))
      [(sampleAsk []).exchange, (sampleAsk [4, 4, 4, 4]).exchange] HttpClient.new ()).1[1]? =
        some (.ok (.got st (okAnswer b!"evil").headers rs)) ∧ st.toCode = 200 ∧ ReadAll rs b!"evil" := by
  obtain ⟨P, hr, hP, hidle, hPs, hfl, hpend⟩ := script_setting c 62
    [answerBytes (okAnswer (answerBytes (okAnswer b!"evil"))), answerBytes (okAnswer b!"hi")] idle seg
  exact @C47_forged_false asciiCase c Unit Unit Talker _ _ _ _ P hr _ hP hidle () HttpClient.new
    (pairPeer (okAnswer (answerBytes (okAnswer b!"evil"))) (okAnswer b!"hi") idle seg) (.inr ⟨rfl, fun _ => rfl⟩) hPs hfl hpend
    (sampleAsk []) (sampleAsk [4, 4, 4, 4]) (okAnswer (answerBytes (okAnswer b!"evil"))) (okAnswer b!"hi") (sampleAsk_proper _)
    (sampleAsk_proper _) (okAnswer_proper _ (by decide +kernel)) (okAnswer_proper _ (by decide)) (fun _ => rfl) (fun _ => rfl)
    (by unfold Positive sampleAsk; decide) (by decide)
    (pairPeer_serves c _ _ _ _ idle seg) () rfl (okAnswer b!"evil") (okAnswer_proper _ (by decide)) (by decide) rfl

/-- Witness for `C47_abandoned_partial`: with `std`, one byte of `data` is read and the rest has arrived with it. -/
example : let _ := asciiCase
    ∃ st rs, (history (c := ⟨true⟩) (oneConnector (pairPeer (okAnswer b!"data") (okAnswer b!"hi") none 10000))
      [(sampleAsk [1]).exchange, (sampleAsk [4, 4]).exchange] HttpClient.new ()).1[1]? =
        some (.ok (.got st (okAnswer b!"hi").headers rs)) ∧ st.toCode = 200 ∧ ReadAll rs b!"hi" := by
  obtain ⟨P, hr, hP, hidle, hPs, hfl, hpend⟩ := script_setting ⟨true⟩ 62
    [answerBytes (okAnswer b!"data"), answerBytes (okAnswer b!"hi")] none 10000
  have hleft : let _ := asciiCase
      (poolGet () (history (c := ⟨true⟩) (oneConnector (pairPeer (okAnswer b!"data") (okAnswer b!"hi") none 10000))
        [(sampleAsk [1]).exchange] HttpClient.new ()).2.1.streams).map trace = some [] := by decide +kernel
  exact @C47_abandoned_partial asciiCase ⟨true⟩ Unit Unit Talker _ _ _ _ P hr _ hP hidle () HttpClient.new
    (pairPeer (okAnswer b!"data") (okAnswer b!"hi") none 10000) (.inr ⟨rfl, fun _ => rfl⟩) hPs hfl hpend (sampleAsk [1])
    (sampleAsk [4, 4]) (okAnswer b!"data") (okAnswer b!"hi") (sampleAsk_proper _) (sampleAsk_proper _)
    (okAnswer_proper _ (by decide)) (okAnswer_proper _ (by decide)) (fun _ => rfl) (fun _ => rfl)
    (by unfold Positive sampleAsk; decide) (by unfold Positive sampleAsk; decide) (by decide)
    (pairPeer_serves ⟨true⟩ _ _ _ _ none 10000) ()
    (.inl fun s1 h => by dsimp only at hleft; rw [h] at hleft; simpa [idleEvs] using hleft)

end HttpIo
