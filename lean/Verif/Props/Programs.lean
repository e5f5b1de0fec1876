import Verif.Model.Programs
import Verif.Spec.Programs
import Verif.Props.Framing
import Verif.Props.Cut
import Verif.Props.Reuse

/-! C105-C109: the client programs of the examples. -/

namespace HttpIo
open Spec

section
variable {c : Cfg}

theorem delivers_limit {t t' : List Ev} {bs : Bytes} (h : Delivers c t bs t') (k : Nat) :
    Delivers c (limitTrace (bs.length + k) t) bs (limitTrace k t') := by
  induction h with
  | nil t => simp only [List.length_nil, Nat.zero_add]; exact .nil _
  | @byte b t t' bs h ih =>
    rw [List.length_cons, show bs.length + 1 + k = (bs.length + k) + 1 by omega]
    exact .byte b ih
  | @retry e t t' b bs he h ih =>
    rw [List.length_cons, show bs.length + 1 + k = (bs.length + k) + 1 by omega] at ih ⊢
    exact .retry he ih

theorem ended_limit {t : List Ev} (h : Ended c t) (k : Nat) : Ended c (limitTrace k t) := by
  induction t generalizing k with
  | nil => cases k <;> simpa [limitTrace] using h
  | cons ev t ih =>
    obtain ⟨e, rfl, he⟩ := h ev (by simp)
    have ih := ih (fun x hx => h x (by simp [hx]))
    cases k with
    | zero => simp [limitTrace, Ended]
    | succ k =>
      intro x hx
      simp only [limitTrace, List.mem_cons] at hx
      rcases hx with rfl | hx
      · exact ⟨e, rfl, he⟩
      · exact ih _ x hx

theorem fails_limit {t t' : List Ev} {e : Err} (h : Fails c t e t') (k : Nat) :
    Fails c (limitTrace (k + 1) t) e (limitTrace (k + 1) t') := by
  obtain ⟨h1, pre, rfl, h2⟩ := h
  refine ⟨h1, pre, ?_, h2⟩
  clear h1
  induction pre with
  | nil => rfl
  | cons ev pre ih =>
    obtain ⟨e', rfl, _⟩ := h2 ev (by simp)
    rw [List.cons_append, limitTrace, ih (fun x hx => h2 x (by simp [hx]))]
    rfl

theorem trace_of_failsAfter {σ : Type} [LawfulReader σ] {s : σ} {bs : Bytes} {e : Err} (h : FailsAfter s bs e) :
    ∃ t, trace s = bs.map .byte ++ .fault e :: t := by
  have hp : Positive (List.replicate (bs.length + 1) 1) := by
    intro n hn; rw [List.eq_of_mem_replicate hn]; omega
  rcases h _ hp with ⟨p, _, _, h1⟩ | ⟨rs, later, h1, h2⟩
  · simp at h1; omega
  · obtain ⟨h3, _⟩ := calls_seen s hp
    rw [h1, seen_append, h2.seen, seen, List.append_assoc] at h3
    exact ⟨_, h3⟩

section
variable {ρ : Type} [LawfulReader ρ] [ZeroReader ρ]

/-- The whole body is what the body value delivers. -/
theorem whole_body [CaseMap] {entries : List (Bytes × Bytes)} (hs : SortedNames entries) {enc : Option Bytes} {len : Option Nat}
    {u : ρ} {bs : Bytes} (hf : FramedBy entries (framing (HttpBody.new c enc len u))) (h : WholeBody c entries (trace u) bs) :
    ∃ t', Delivers c (trace (HttpBody.new c enc len u)) bs t' ∧ Ended c t' := by
  obtain ⟨f1, f2, f3⟩ := framed_trace (c := c) enc len u
  cases h with
  | @chunked chs last rest h1 h2 h3 h4 =>
    obtain ⟨g1, g2⟩ := f1 (framedBy_unique hs hf h1)
    subst g2
    have := trace_of_yields (C24_decode c len u chs last rest h2 h3 h4).1
    exact ⟨[], by rw [this]; exact by simpa using delivers_map c (chunkedData chs) [], by simp [Ended]⟩
  | @limited bs rest h1 h2 =>
    rw [f2 _ (framedBy_unique hs hf h1)]
    have := delivers_limit h2 0
    rw [Nat.add_zero, limitTrace_zero] at this
    exact ⟨[], this, by simp [Ended]⟩
  | @tilClose bs rest h1 h2 h3 =>
    rw [f3 (framedBy_unique hs hf h1)]
    exact ⟨rest, h2, h3⟩

end

section
variable {ρ ο : Type} [LawfulReader ρ] [LawfulWriter ο]

/-- Printing from a body that fails. -/
theorem printBody_fails {Q : ο → Prop} (hq : Reliable c Q) {body : ρ} {out : ο} (ho : Q out) {bs : Bytes} {e : Err}
    {t' t'' : List Ev} (hd : Delivers c (trace body) bs t') (hf : Fails c t' e t'') :
    ∃ body' out', printBody (c := c) body out = (.err e, body', out') ∧ sent out' = sent out ++ bs ∧ Q out' := by
  obtain ⟨body', out', h1, h2⟩ := copy_fails hq (n := 0) ho hd hf
  exact ⟨body', out', by unfold printBody; rw [h1], h2⟩

/-- Printing what a body delivers. -/
theorem printBody_ok {Q : ο → Prop} (hq : Reliable c Q) {body : ρ} {out : ο} (ho : Q out) {bs : Bytes} {t' : List Ev}
    (hd : Delivers c (trace body) bs t') (he : Ended c t') :
    ∃ body' out', printBody (c := c) body out = (.ok (), body', out') ∧ Q out' ∧ sent out' = sent out ++ bs := by
  obtain ⟨k, body', out', h1, h2⟩ := hq.copy_ok (r := body) (n := 0) ho hd he
  obtain ⟨bs', t'', g1, g2, g3, _⟩ := C33_copy_ok c _ _ _ _ _ _ h1
  rw [(g1.ended_unique g2 hd he)] at g3
  exact ⟨body', out', by unfold printBody; rw [h1], h2, g3⟩

end

section
variable [CaseMap] {ω α σ τ : Type} [PeerSocket σ] [ZeroReader σ] [LawfulReader τ]

/-- A request whose body was copied from a reader. -/
theorem put_said {ς : Type} [LawfulReader ς] [LawfulWriter ς] {P K : ς → Prop} (hr : Reliable c P) (hk : Kept K) {s : ς}
    (hs : P s) (hK : K s) (hw : wire s = sent s) {url : Url} (hu : Askable url)
    {body : τ} {up : Bytes} {t' : List Ev} (hd : Delivers c (trace body) up t') (he : Ended c t') :
    ∃ b o k body' o' s1 bytes, HttpRequestBuilder.new c (HttpUrl.tryFrom url) .Put = .ok b ∧
      b.send s = .ok o ∧ copy c body o 0 = (.ok k, body', o') ∧ o'.complete = .ok s1 ∧ RequestFor url .Put up bytes ∧
      wire s1 = wire s ++ bytes ∧ sent s1 = wire s1 ∧ K s1 := by
  obtain ⟨b, o, _, _, _, h1, h2, _⟩ := request_said hr hk s hs hK hw ⟨true, url, [], []⟩
    ⟨hu.ascii, hu.scheme, hu.host, by simp [written], by simp⟩
  rw [if_pos rfl] at h1
  obtain ⟨host, hhost⟩ := hu.host
  obtain ⟨sch, h3, _⟩ := HttpUrl.tryFrom_ok hu.ascii hu.scheme hhost
  obtain ⟨b', h4, h5, h6, h7, h8⟩ := HttpRequestBuilder.new_ok c ⟨url, sch, host⟩ .Put
  have hb : b' = b := by
    dsimp only at h1
    rw [h3, h4] at h1
    simpa using h1
  subst hb
  obtain ⟨ob, rfl⟩ := (C18_serialized b'.request s h7 o h2).2.2 (by rw [h5]; simp)
  obtain ⟨o2, g1, g2⟩ := hr.serialize_ok b'.request (s := s) hs
  have ho2 : o2 = .WithBody ob := by
    have : b'.send s = .ok o2 := g1
    rw [this] at h2; simpa using h2
  subst ho2
  obtain ⟨k, body', o', g3, _⟩ := hr.outgoing.copy_ok (r := body) (s := OutgoingRequest.WithBody ob) (n := 0) ⟨g2, ob, rfl⟩ hd he
  obtain ⟨bufs, ob', t2, e1, e2, e3, e4, e5⟩ := hr.copy_performs (b := ob) g2 g3
  obtain ⟨b3, o3, o4, s1, bytes, f1, f2, f3, f4, f5, f6, f7, _, f8⟩ := request_said hr hk s hs hK hw ⟨true, url, bufs.map .write, []⟩
    ⟨hu.ascii, hu.scheme, hu.host, by
      intro buf hbuf
      rw [written_map] at hbuf
      exact (e5 buf hbuf), by simp⟩
  rw [if_pos rfl] at f1
  dsimp only at h1 f1
  rw [h1] at f1
  simp only [Res.ok.injEq] at f1
  subst f1
  rw [h2] at f2
  simp only [Except.ok.injEq] at f2
  subst f2
  dsimp only at f3
  rw [perform_withBody, e2] at f3
  simp only [Prod.mk.injEq, true_and] at f3
  rw [e1] at g3
  subst f3
  obtain ⟨host', j1, j2⟩ := f5
  dsimp only at j2
  rw [if_pos rfl] at j2
  obtain ⟨chs, j3, j4⟩ := j2
  refine ⟨b', _, k, body', _, s1, bytes, h1, h2, g3, f4, ⟨host', j1, ?_⟩, f6, f7, f8⟩
  rw [if_pos rfl]
  refine ⟨chs, j3.1, ?_, j4⟩
  rw [chunkedData_for j3, written_map]
  exact Delivers.ended_unique e3 e4 hd he

/-- The same, to a peer. -/
theorem put_sent {P : σ → Prop} (hr : Reliable c P) {s : σ} (hs : P s) (hw : wire s = sent s) {url : Url} (hu : Askable url)
    {body : τ} {up : Bytes} {t' : List Ev} (hd : Delivers c (trace body) up t') (he : Ended c t') :
    ∃ b o k body' o' s1 bytes, HttpRequestBuilder.new c (HttpUrl.tryFrom url) .Put = .ok b ∧
      b.send s = .ok o ∧ copy c body o 0 = (.ok k, body', o') ∧ o'.complete = .ok s1 ∧ RequestFor url .Put up bytes ∧
      wire s1 = wire s ++ bytes ∧ PeerSocket.peer s1 = PeerSocket.peer s ∧ PeerSocket.taken s1 = PeerSocket.taken s := by
  obtain ⟨b, o, k, body', o', s1, bytes, h1, h2, h3, h4, h5, h6, _, h7⟩ :=
    put_said hr (peer_kept (PeerSocket.peer s) (PeerSocket.taken s)) hs ⟨rfl, rfl⟩ hw hu hd he
  exact ⟨b, o, k, body', o', s1, bytes, h1, h2, h3, h4, h5, h6, h7⟩

/-- What a one-shot request does once the whole request was sent. -/
theorem answered {N : StreamConnector ω α σ} {url : Url} {w w1 w2 : ω} {a : α} {s : σ} (ha : N.toStreamAddr url w = (.ok a, w1))
    (hc : N.connect a w1 = (.ok s, w2)) {m : HttpMethod} {up : Bytes} {status : HttpStatus} {headers : HttpHeaders}
    {R : List Ev → Prop} (hh : SendableHeaders headers.entries) (hl : LengthOk headers.entries)
    (hans : AnswersRequest c (PeerSocket.peer s) (wire s) (PeerSocket.taken s) url m up status headers R)
    {b : HttpRequestBuilder c} {o o' : OutgoingRequest c σ} {body body' : τ} {k : Nat} {s1 : σ} {bytes : Bytes}
    (h1 : b.send s = .ok o) (h2 : copy c body o 0 = (.ok k, body', o')) (h3 : o'.complete = .ok s1)
    (h4 : RequestFor url m up bytes) (h5 : wire s1 = wire s ++ bytes) (h6 : PeerSocket.peer s1 = PeerSocket.peer s)
    (h7 : PeerSocket.taken s1 = PeerSocket.taken s) :
    (status.toCode = 200 → ∃ enc len s2, sendRequest c N b url body w = (.ok (HttpBody.new c enc len (BufReader.new c s2)), w2) ∧
      FramedBy headers.entries (framing (HttpBody.new c enc len (BufReader.new c s2))) ∧ R (trace s2)) ∧
    (status.toCode ≠ 200 → ∃ st, sendRequest c N b url body w = (.err (.unexpectedStatus st), w2) ∧
      st.toCode = status.toCode ∧ ((∀ n, status ≠ .Unknown n) → st = status)) := by
  obtain ⟨evs, t, p1, p2, p3⟩ := hans bytes h4
  have htr : trace s1 = evs := by
    have := PeerSocket.heard s1
    rw [h5, h6, h7, p1] at this
    exact List.append_cancel_left this
  rw [← htr] at p2
  obtain ⟨r, s2, g1, g2, _, _, g3, g4, g5⟩ := response_delivered c s1 status headers t hh hl p2
  have hfin : o'.finish = (.ok r, s2) := by unfold OutgoingRequest.finish; rw [h3]; exact g1
  have hsend : sendRequest c N b url body w =
      if r.status ≠ .OK then (.err (.unexpectedStatus r.status), w2) else (.ok r.body, w2) := by
    unfold sendRequest
    rw [ha]; dsimp only
    rw [hc]; dsimp only
    rw [h1]; dsimp only
    rw [h2]; dsimp only
    rw [hfin]
  rw [hsend]
  constructor
  · intro h200
    have : r.status = .OK := by rw [g2]; exact (fromCode_ok _).2 h200
    rw [if_neg (by simp [this])]
    obtain ⟨_, enc, len, hbody⟩ := response_under g1
    rw [hbody] at g3 ⊢
    exact ⟨enc, len, s2, rfl, g3, by rw [g5]; exact p3⟩
  · intro h200
    have : r.status ≠ .OK := by rw [g2]; exact fun h => h200 ((fromCode_ok _).1 h)
    rw [if_pos this]
    refine ⟨r.status, rfl, by rw [g2, C01_code_lossless], fun hn => ?_⟩
    rw [g2]
    cases status with
    | Unknown n => exact absurd rfl (hn n)
    | _ => rfl

variable {φ ο : Type} [LawfulReader φ] [LawfulWriter ο]

omit [LawfulReader τ] in
/-- What the example client does with a response. -/
theorem client_runs {P : σ → Prop} (hr : Reliable c P) (N : StreamConnector ω α σ) (openFile : Bytes → Option φ) (m : HttpMethod)
    (data up : Bytes) (hup : Uploads c openFile data m up) (url : Url) (hu : Askable url) (w w1 w2 : ω) (a : α) (s : σ)
    (ha : N.toStreamAddr url w = (.ok a, w1)) (hc : N.connect a w1 = (.ok s, w2)) (hP : P s) (hw : wire s = sent s)
    (status : HttpStatus) (headers : HttpHeaders) (hh : SendableHeaders headers.entries) (hl : LengthOk headers.entries)
    (R : List Ev → Prop)
    (hans : AnswersRequest c (PeerSocket.peer s) (wire s) (PeerSocket.taken s) url m up status headers R) (out : ο) :
    (status.toCode = 200 → ∃ enc len, ∃ s2 : σ, clientProgram c N openFile m data url w out =
        (match printBody (c := c) (HttpBody.new c enc len (BufReader.new c s2)) out with | (r, _, out) => (r, out, w2)) ∧
      FramedBy headers.entries (framing (HttpBody.new c enc len (BufReader.new c s2))) ∧ R (trace s2)) ∧
    (status.toCode ≠ 200 → ∃ st, clientProgram c N openFile m data url w out = (.err (.unexpectedStatus st), out, w2) ∧
      st.toCode = status.toCode ∧ ((∀ n, status ≠ .Unknown n) → st = status)) := by
  cases hup with
  | get =>
    obtain ⟨b, o, o', s1, bytes, h1, h2, h3, h4, h5, h6, _, _, h7, h8⟩ := request_sent hr s hP hw ⟨false, url, [], []⟩
      ⟨hu.ascii, hu.scheme, hu.host, by simp [written], by simp [written]⟩
    rw [if_neg (by simp)] at h1
    dsimp only at h1 h3
    rw [perform] at h3
    simp only [Prod.mk.injEq, true_and] at h3
    subst h3
    have h5' : RequestFor url .Get [] bytes := by
      obtain ⟨host, j1, j2⟩ := h5
      exact ⟨host, j1, by simpa using j2⟩
    have hcl : clientGet c N (some url) w = sendRequest c N b url EmptyReader.mk w := by
      unfold clientGet HttpRequestBuilder.get
      dsimp only
      rw [h1]
    obtain ⟨g1, g2⟩ := answered ha hc hh hl hans h2 (copy_empty o 0) h4 h5' h6 h7 h8
    refine ⟨fun h200 => ?_, fun h200 => ?_⟩
    · obtain ⟨enc, len, s2, e1, e2⟩ := g1 h200
      exact ⟨enc, len, s2, by unfold clientProgram; dsimp only; rw [hcl, e1], e2⟩
    · obtain ⟨st, e1, e2⟩ := g2 h200
      exact ⟨st, by unfold clientProgram; dsimp only; rw [hcl, e1], e2⟩
  | @file file up t' hf hd he =>
    obtain ⟨b, o, k, body', o', s1, bytes, h1, h2, h3, h4, h5, h6, h7, h8⟩ := put_sent hr hP hw hu hd he
    have hcl : clientPut c N (some url) file w = sendRequest c N b url file w := by
      unfold clientPut HttpRequestBuilder.put
      dsimp only
      rw [h1]
    obtain ⟨g1, g2⟩ := answered ha hc hh hl hans h2 h3 h4 h5 h6 h7 h8
    refine ⟨fun h200 => ?_, fun h200 => ?_⟩
    · obtain ⟨enc, len, s2, e1, e2⟩ := g1 h200
      exact ⟨enc, len, s2, by unfold clientProgram; dsimp only; rw [hf]; dsimp only; rw [hcl, e1], e2⟩
    · obtain ⟨st, e1, e2⟩ := g2 h200
      exact ⟨st, by unfold clientProgram; dsimp only; rw [hf]; dsimp only; rw [hcl, e1], e2⟩
  | text hf =>
    obtain ⟨b, o, k, body', o', s1, bytes, h1, h2, h3, h4, h5, h6, h7, h8⟩ := put_sent (c := c) hr hP hw hu
      (body := SliceReader.mk data) (up := data) (t' := []) (by
        show Delivers c (data.map .byte) data []
        simpa using delivers_map c data []) (by simp [Ended])
    have hcl : clientPut c N (some url) (SliceReader.mk data) w = sendRequest c N b url (SliceReader.mk data) w := by
      unfold clientPut HttpRequestBuilder.put
      dsimp only
      rw [h1]
    obtain ⟨g1, g2⟩ := answered ha hc hh hl hans h2 h3 h4 h5 h6 h7 h8
    refine ⟨fun h200 => ?_, fun h200 => ?_⟩
    · obtain ⟨enc, len, s2, e1, e2⟩ := g1 h200
      exact ⟨enc, len, s2, by unfold clientProgram; dsimp only; rw [hf]; dsimp only; rw [hcl, e1], e2⟩
    · obtain ⟨st, e1, e2⟩ := g2 h200
      exact ⟨st, by unfold clientProgram; dsimp only; rw [hf]; dsimp only; rw [hcl, e1], e2⟩

/-! ### C105 -/

omit [LawfulReader τ] in
/-- The example client, for GET and PUT, every URL, every file or text, every transport that does not fail, and every server
that answers the request it is meant to send (and no other) with a response: if the status code is 200, the program prints
exactly the body of the response, however it is framed, and succeeds; if not, it prints nothing and fails with the status. -/
theorem C105_prints {P : σ → Prop} (hr : Reliable c P) {Q : ο → Prop} (hq : Reliable c Q) (N : StreamConnector ω α σ)
    (openFile : Bytes → Option φ) (m : HttpMethod) (data up : Bytes) (hup : Uploads c openFile data m up) (url : Url)
    (hu : Askable url) (w w1 w2 : ω) (a : α) (s : σ)
    (ha : N.toStreamAddr url w = (.ok a, w1)) (hc : N.connect a w1 = (.ok s, w2)) (hP : P s) (hw : wire s = sent s)
    (status : HttpStatus) (headers : HttpHeaders) (hh : SendableHeaders headers.entries) (hl : LengthOk headers.entries)
    (body : Bytes) (hans : AnswersRequest c (PeerSocket.peer s) (wire s) (PeerSocket.taken s) url m up status headers
      fun t => WholeBody c headers.entries t body) (out : ο) (ho : Q out) :
    (status.toCode = 200 → ∃ out', clientProgram c N openFile m data url w out = (.ok (), out', w2) ∧
      sent out' = sent out ++ body) ∧
    (status.toCode ≠ 200 → ∃ st, clientProgram c N openFile m data url w out = (.err (.unexpectedStatus st), out, w2) ∧
      st.toCode = status.toCode ∧ ((∀ n, status ≠ .Unknown n) → st = status)) := by
  obtain ⟨g1, g2⟩ := client_runs hr N openFile m data up hup url hu w w1 w2 a s ha hc hP hw status headers hh hl _ hans out
  refine ⟨fun h200 => ?_, g2⟩
  obtain ⟨enc, len, s2, e1, e2, e3⟩ := g1 h200
  rw [← BufReader.trace_new (c := c)] at e3
  obtain ⟨t', k1, k2⟩ := whole_body hh.1 e2 e3
  obtain ⟨body', out', k3, _, k4⟩ := printBody_ok hq ho k1 k2
  exact ⟨out', by rw [e1, k3], k4⟩

omit [LawfulReader τ] in
/-- For any other method it does nothing: no lookup, no connection, no output; the error is the method. -/
theorem C105_method (N : StreamConnector ω α σ) (openFile : Bytes → Option φ) (m : HttpMethod) (data : Bytes) (url : Url) (w : ω)
    (out : ο) (hm : m ≠ .Get ∧ m ≠ .Put) :
    clientProgram c N openFile m data url w out = (.err (.unexpectedMethod m), out, w) := by
  unfold clientProgram
  cases m <;> simp_all

/-! ### C106 -/

omit [LawfulReader τ] in
/-- The program may print part of the body and succeed: if the connection ends before as many bytes as declared have come,
it prints those that have and reports success. -/
theorem C106_cut_false {P : σ → Prop} (hr : Reliable c P) {Q : ο → Prop} (hq : Reliable c Q) (N : StreamConnector ω α σ)
    (openFile : Bytes → Option φ) (m : HttpMethod) (data up : Bytes) (hup : Uploads c openFile data m up) (url : Url)
    (hu : Askable url) (w w1 w2 : ω) (a : α) (s : σ)
    (ha : N.toStreamAddr url w = (.ok a, w1)) (hc : N.connect a w1 = (.ok s, w2)) (hP : P s) (hw : wire s = sent s)
    (headers : HttpHeaders) (hh : SendableHeaders headers.entries) (n : Nat) (hf : FramedBy headers.entries (.limited n))
    (part : Bytes) (hn : part.length < n)
    (hans : AnswersRequest c (PeerSocket.peer s) (wire s) (PeerSocket.taken s) url m up .OK headers
      fun t => ∃ t', Delivers c t part t' ∧ Ended c t') (out : ο) (ho : Q out) :
    ∃ out', clientProgram c N openFile m data url w out = (.ok (), out', w2) ∧ sent out' = sent out ++ part := by
  obtain ⟨g1, _⟩ := client_runs hr N openFile m data up hup url hu w w1 w2 a s ha hc hP hw .OK headers hh
    (FramedBy.lengthOk hh.1 hf) _ hans out
  obtain ⟨enc, len, s2, e1, e2, t', e3, e4⟩ := g1 rfl
  rw [← BufReader.trace_new (c := c)] at e3
  have hlim : limitTrace n (trace (BufReader.new c s2)) = trace (HttpBody.new c enc len (BufReader.new c s2)) :=
    ((framed_trace (c := c) enc len _).2.1 _ (framedBy_unique hh.1 e2 hf)).symm
  have hd := delivers_limit e3 (n - part.length)
  rw [show part.length + (n - part.length) = n by omega, hlim] at hd
  obtain ⟨body', out', k3, _, k4⟩ := printBody_ok hq ho hd (ended_limit e4 _)
  exact ⟨out', by rw [e1, k3], k4⟩

omit [LawfulReader τ] in
/-- What does hold. Chunked: if the connection ends before the last size line, the program fails, having printed the data
that came. And in all framings: if reading fails within the body, the program fails with that error, having printed what came
before. Missing for the full property: ends of the connection within a body of declared length (or of a body that goes on
till the end, for which nobody can tell). -/
theorem C106_noticed_partial {P : σ → Prop} (hr : Reliable c P) {Q : ο → Prop} (hq : Reliable c Q) (N : StreamConnector ω α σ)
    (openFile : Bytes → Option φ) (m : HttpMethod) (data up : Bytes) (hup : Uploads c openFile data m up) (url : Url)
    (hu : Askable url) (w w1 w2 : ω) (a : α) (s : σ)
    (ha : N.toStreamAddr url w = (.ok a, w1)) (hc : N.connect a w1 = (.ok s, w2)) (hP : P s) (hw : wire s = sent s)
    (headers : HttpHeaders) (hh : SendableHeaders headers.entries) (hl : LengthOk headers.entries) (out : ο) (ho : Q out) :
    (∀ (chs : List Chunk) last p, FramedBy headers.entries .chunked → (∀ ch ∈ chs, ch.WellFormed) → UnsignedText 16 last 0 →
      p <+: chunkedBytes chs last → p ≠ chunkedBytes chs last →
      AnswersRequest c (PeerSocket.peer s) (wire s) (PeerSocket.taken s) url m up .OK headers (fun t => t = p.map .byte) →
      (∃ pre q out', pre <+: chs ∧ p = (pre.map Chunk.bytes).flatten ++ q ∧ ¬ HasCrLf q ∧
        clientProgram c N openFile m data url w out = (.err (if c.std then .io (.other 0) else .unexpectedEof), out', w2) ∧
        sent out' = sent out ++ chunkedData pre) ∨
      ∃ pre ch q out', pre ++ [ch] <+: chs ∧ p = (pre.map Chunk.bytes).flatten ++ ch.size ++ [13, 10] ++ q ∧
        q <+: ch.data ++ [13, 10] ∧ q ≠ ch.data ++ [13, 10] ∧
        clientProgram c N openFile m data url w out = (.err (if c.std then .io .unexpectedEof else .unexpectedEof), out', w2) ∧
        sent out' = sent out ++ (chunkedData pre ++ q.take ch.data.length)) ∧
    (∀ part e, ¬ Retried c e →
      (FramedBy headers.entries .tilClose ∨ ∃ n, FramedBy headers.entries (.limited n) ∧ part.length < n) →
      AnswersRequest c (PeerSocket.peer s) (wire s) (PeerSocket.taken s) url m up .OK headers
        (fun t => ∃ t' t'', Delivers c t part t' ∧ Fails c t' e t'') →
      ∃ out', clientProgram c N openFile m data url w out = (.err e, out', w2) ∧ sent out' = sent out ++ part) := by
  constructor
  · intro chs last p hf hwf hlast hp hne hans
    obtain ⟨g1, _⟩ := client_runs hr N openFile m data up hup url hu w w1 w2 a s ha hc hP hw .OK headers hh hl _ hans out
    obtain ⟨enc, len, s2, e1, e2, e3⟩ := g1 rfl
    obtain ⟨_, henc⟩ := (framed_trace (c := c) enc len (BufReader.new c s2)).1 (framedBy_unique hh.1 e2 hf)
    subst henc
    have run : ∀ d e, ¬ Retried c e → FailsAfter (HttpBody.new c (some b!"chunked") len (BufReader.new c s2)) d e →
        ∃ out', clientProgram c N openFile m data url w out = (.err e, out', w2) ∧ sent out' = sent out ++ d := by
      intro d e he hfail
      obtain ⟨t, ht⟩ := trace_of_failsAfter hfail
      obtain ⟨body', out', k1, k2, _⟩ := printBody_fails hq ho (by rw [ht]; exact delivers_map c d _) ⟨he, [], rfl, by simp [Ended]⟩
      exact ⟨out', by rw [e1, k1], k2⟩
    rcases C25_exact c len (BufReader.new c s2) chs last p hwf hlast hp hne (by rw [BufReader.trace_new]; exact e3) with
      ⟨pre, q, h1, h2, h3, h4⟩ | ⟨pre, ch, q, h1, h2, h3, h4, h5⟩
    · obtain ⟨out', k1, k2⟩ := run _ _ (by rintro ⟨h, h'⟩; rw [if_pos h] at h'; simp at h') h4
      exact .inl ⟨pre, q, out', h1, h2, h3, k1, k2⟩
    · obtain ⟨out', k1, k2⟩ := run _ _ (by rintro ⟨h, h'⟩; rw [if_pos h] at h'; simp at h') h5
      exact .inr ⟨pre, ch, q, out', h1, h2, h3, h4, k1, k2⟩
  · intro part e he hf hans
    obtain ⟨g1, _⟩ := client_runs hr N openFile m data up hup url hu w w1 w2 a s ha hc hP hw .OK headers hh hl _ hans out
    obtain ⟨enc, len, s2, e1, e2, t', t'', e3, e4⟩ := g1 rfl
    rw [← BufReader.trace_new (c := c)] at e3
    obtain ⟨_, f2, f3⟩ := framed_trace (c := c) enc len (BufReader.new c s2)
    obtain ⟨u', u'', k1, k2⟩ : ∃ u' u'', Delivers c (trace (HttpBody.new c enc len (BufReader.new c s2))) part u' ∧ Fails c u' e u'' := by
      rcases hf with hf | ⟨n, hf, hn⟩
      · exact ⟨t', t'', by rw [f3 (framedBy_unique hh.1 e2 hf)]; exact e3, e4⟩
      · have := delivers_limit e3 (n - part.length)
        rw [show part.length + (n - part.length) = n by omega, ← f2 _ (framedBy_unique hh.1 e2 hf)] at this
        obtain ⟨k, hk⟩ : ∃ k, n - part.length = k + 1 := ⟨n - part.length - 1, by omega⟩
        rw [hk] at this
        exact ⟨_, _, this, fails_limit e4 k⟩
    obtain ⟨body', out', k3, k4, _⟩ := printBody_fails hq ho k1 k2
    exact ⟨out', by rw [e1, k3], k4⟩

end

end

/-! ### Witnesses for C105 and C106 -/

/-- A peer that answers in segments of four bytes as soon as it has received anything; after the answer the connection
ends, or fails. -/
def oneReply (answer : Bytes) (idle : Option Err) : Talker where
  reply w := if w = [] then [] else answer
  mono w x := by
    by_cases h : w = []
    · rw [if_pos h]; exact List.nil_prefix
    · rw [if_neg h, if_neg (by simp [h])]; exact List.prefix_refl _
  idle := idle
  seg := 4
  sink := ⟨[], 0, [.accept 3, .accept 1]⟩
  got := []
  got_le := List.nil_prefix
  dead := false
  dead_got := by simp

theorem sampleUrl_askable : let _ := asciiCase; Askable sampleUrl := by
  intro _
  exact ⟨by rw [← isAscii_iff]; decide, .inr (by unfold SecureHttp; rw [utf8_https]; exact sameText_refl _), _, rfl⟩

theorem requestFor_nonempty {url : Url} {m : HttpMethod} {up bytes : Bytes} (h : RequestFor url m up bytes) : bytes ≠ [] := by
  obtain ⟨host, _, h⟩ := h
  split at h
  · obtain ⟨chs, _, _, rfl⟩ := h; simp
  · obtain ⟨_, rfl⟩ := h; simp [requestHead]

theorem oneReply_answers (c : Cfg) (idle : Option Err) (status : HttpStatus) (headers : HttpHeaders) (body : Bytes) (url : Url)
    (m : HttpMethod) (up : Bytes) (R : List Ev → Prop)
    (hR : R (body.map .byte ++ idle.toList.map .fault)) :
    let s := oneReply (responseHead status.display headers.entries ++ body) idle
    AnswersRequest c (PeerSocket.peer s) (wire s) (PeerSocket.taken s) url m up status headers R := by
  intro s bytes hb
  have hne := requestFor_nonempty hb
  refine ⟨(responseHead status.display headers.entries ++ body).map .byte ++ idle.toList.map .fault, _, ?_, ?_, hR⟩
  · have : PeerSocket.taken s = [] := by
      show Talker.heard _ = []
      unfold Talker.heard Talker.past
      cases idle <;> rfl
    rw [this]
    show Talker.said s _ = _
    unfold Talker.said
    have : s.reply (wire s ++ bytes) = responseHead status.display headers.entries ++ body := by
      show (if _ then _ else _) = _
      rw [if_neg (by simp [hne])]
    rw [this]; cases idle <;> rfl
  · rw [List.map_append, List.append_assoc]
    exact delivers_map c _ _

theorem oneReply_fine (answer : Bytes) (idle : Option Err) (c : Cfg) :
    (oneReply answer idle).idle = idle ∧ (oneReply answer idle).dead = false ∧ ∀ a ∈ (oneReply answer idle).sink.plan,
      (∃ n, a = .accept (n + 1)) ∨ ∃ e, a = .fault e ∧ Retried c e := by
  refine ⟨rfl, rfl, ?_⟩
  intro a ha
  simp [oneReply] at ha
  rcases ha with rfl | rfl
  · exact .inl ⟨2, rfl⟩
  · exact .inl ⟨0, rfl⟩

/-- A network with one peer. -/
def onePeer (s : Talker) : StreamConnector Unit Unit Talker := ⟨fun _ w => (.ok s, w), fun _ w => (.ok (), w)⟩

theorem chunkedHeader_sendable : let _ := asciiCase; SendableHeaders [(b!"transfer-encoding", b!"chunked")] := by
  intro _
  refine ⟨by unfold SortedNames; simp, ?_, ?_⟩
  · intro kv hkv; simp at hkv; subst hkv; dsimp only; decide
  · intro kv hkv
    simp only [List.mem_cons, List.not_mem_nil, or_false] at hkv
    subst hkv
    exact ⟨isText_ascii (by decide), by decide, by unfold HasCrLf; decide, by rw [← startsBlank_iff]; decide,
      isText_ascii (by decide), by unfold HasCrLf; decide⟩

theorem lengthHeader_sendable : let _ := asciiCase; SendableHeaders [(b!"content-length", b!"3")] := by
  intro _
  exact (twoAnswers_proper twoAnswers[1] (List.getElem_mem _)).2.1.sendable

/-- Witness for `C105_prints`: a PUT of a text, answered with a chunked body. -/
example (c : Cfg) : let _ := asciiCase
    let s := oneReply (responseHead (HttpStatus.display .OK) [(b!"transfer-encoding", b!"chunked")] ++ b!"2\r\nhi\r\n0\r\n") none
    ∃ out', clientProgram c (onePeer s) (fun _ => none (α := Evs)) .Put b!"abc" sampleUrl () (Sink.mk [] 0 [.accept 1]) =
      (.ok (), out', ()) ∧ sent out' = b!"hi" := by
  intro _ s
  refine (@C105_prints c asciiCase Unit Unit Talker _ _ Evs Sink _ _ _ (talker_reliable c none) _ (sink_reliable c) (onePeer s)
    (fun _ => none) .Put b!"abc" b!"abc" (.text rfl) sampleUrl sampleUrl_askable () () () () s rfl rfl
    (oneReply_fine _ none c) rfl .OK ⟨[(b!"transfer-encoding", b!"chunked")]⟩ chunkedHeader_sendable (by intro v hv; simp at hv)
    b!"hi" ?_ (Sink.mk [] 0 [.accept 1]) (by simp)).1 rfl
  refine oneReply_answers c none .OK ⟨[(b!"transfer-encoding", b!"chunked")]⟩ b!"2\r\nhi\r\n0\r\n" _ _ _ _ ?_
  refine .chunked (chs := [⟨b!"2", b!"hi", [13, 10]⟩]) (last := b!"0") (rest := []) (.chunked (by simp)) ?_
    ((fromStrRadix_iff (max := 9) (by decide) (by decide)).1 (by decide)).1 ?_
  · intro ch hch
    simp only [List.mem_singleton] at hch
    subst hch
    exact ⟨⟨((fromStrRadix_iff (max := 9) (by decide) (by decide)).1 (by decide)).1, by decide, by decide, rfl⟩, rfl⟩
  · exact deliversChunked_map c [⟨b!"2", b!"hi", [13, 10]⟩] b!"0" []

/-- Witness for `C106_cut_false`: a GET, answered with two of three bytes. -/
example (c : Cfg) : let _ := asciiCase
    let s := oneReply (responseHead (HttpStatus.display .OK) [(b!"content-length", b!"3")] ++ b!"hi") none
    ∃ out', clientProgram c (onePeer s) (fun _ => none (α := Evs)) .Get b!"" sampleUrl () (Sink.mk [] 0 []) =
      (.ok (), out', ()) ∧ sent out' = b!"hi" := by
  intro _ s
  refine @C106_cut_false c asciiCase Unit Unit Talker _ _ Evs Sink _ _ _ (talker_reliable c none) _ (sink_reliable c) (onePeer s)
    (fun _ => none) .Get b!"" [] .get sampleUrl sampleUrl_askable () () () () s rfl rfl
    (oneReply_fine _ none c) rfl ⟨[(b!"content-length", b!"3")]⟩ lengthHeader_sendable 3
    (.limited (v := b!"3") (by simp) (by simp) (lengthText_iff.1 (by decide))) b!"hi" (by decide) ?_ (Sink.mk [] 0 []) (by simp)
  exact oneReply_answers c none .OK ⟨[(b!"content-length", b!"3")]⟩ b!"hi" _ _ _ _ ⟨[], delivers_map c _ _, by simp [Ended]⟩

/-- Witness for `C106_noticed_partial`: the same with a failure after two bytes, and a chunked body cut in its chunk. -/
example (c : Cfg) : let _ := asciiCase
    (let s := oneReply (responseHead (HttpStatus.display .OK) [(b!"content-length", b!"3")] ++ b!"hi") (some .other)
      ∃ out', clientProgram c (onePeer s) (fun _ => none (α := Evs)) .Get b!"" sampleUrl () (Sink.mk [] 0 []) =
        (.err .other, out', ()) ∧ sent out' = b!"hi") ∧
    (let s := oneReply (responseHead (HttpStatus.display .OK) [(b!"transfer-encoding", b!"chunked")] ++ b!"2\r\nh") none
      ∃ e out', clientProgram c (onePeer s) (fun _ => none (α := Evs)) .Get b!"" sampleUrl () (Sink.mk [] 0 []) =
        (.err e, out', ())) := by
  intro _
  refine ⟨?_, ?_⟩
  · intro s
    refine (@C106_noticed_partial c asciiCase Unit Unit Talker _ _ Evs Sink _ _ _ (talker_reliable c (some .other)) _ (sink_reliable c)
      (onePeer s) (fun _ => none) .Get b!"" [] .get sampleUrl sampleUrl_askable () () () () s rfl rfl
      (oneReply_fine _ _ c) rfl ⟨[(b!"content-length", b!"3")]⟩ lengthHeader_sendable
      (FramedBy.lengthOk lengthHeader_sendable.1 (.limited (v := b!"3") (n := 3) (by simp) (by simp) (lengthText_iff.1 (by decide))))
      (Sink.mk [] 0 []) (by simp)).2 b!"hi" .other (by simp [Retried])
      (.inr ⟨3, .limited (v := b!"3") (by simp) (by simp) (lengthText_iff.1 (by decide)), by decide⟩) ?_
    exact oneReply_answers c (some .other) .OK ⟨[(b!"content-length", b!"3")]⟩ b!"hi" _ _ _ _
      ⟨[.fault .other], [], delivers_map c _ _, by simp [Retried], [], rfl, by simp [Ended]⟩
  · intro s
    have := (@C106_noticed_partial c asciiCase Unit Unit Talker _ _ Evs Sink _ _ _ (talker_reliable c none) _ (sink_reliable c)
      (onePeer s) (fun _ => none) .Get b!"" [] .get sampleUrl sampleUrl_askable () () () () s rfl rfl
      (oneReply_fine _ _ c) rfl ⟨[(b!"transfer-encoding", b!"chunked")]⟩ chunkedHeader_sendable (by intro v hv; simp at hv)
      (Sink.mk [] 0 []) (by simp)).1 [⟨b!"2", b!"hi", [13, 10]⟩] b!"0" b!"2\r\nh" (.chunked (by simp))
      (by intro ch hch
          simp only [List.mem_singleton] at hch
          subst hch
          exact ⟨⟨((fromStrRadix_iff (max := 9) (by decide) (by decide)).1 (by decide)).1, by decide, by decide, rfl⟩, rfl⟩)
      ((fromStrRadix_iff (max := 9) (by decide) (by decide)).1 (by decide)).1 ⟨b!"i\r\n0\r\n", by decide⟩ (by decide)
      (oneReply_answers c none .OK ⟨[(b!"transfer-encoding", b!"chunked")]⟩ b!"2\r\nh" _ _ _ _ (by simp))
    rcases this with ⟨_, _, out', _, _, _, h, _⟩ | ⟨_, _, _, out', _, _, _, _, h, _⟩ <;> exact ⟨_, out', h⟩

end HttpIo
