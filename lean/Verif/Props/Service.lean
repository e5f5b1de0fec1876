import Verif.Spec.Service
import Verif.Props.Asked
import Verif.Props.Prints

/-! C193: the server over its whole life, with any handler of which it is known what it makes of each request. -/

namespace HttpIo
open Spec

section
variable [CaseMap] {c : Cfg} {κ : Type}

/-- The rules say something of every connection. -/
theorem servesOne_total (errText : Err → Bytes) (S : Service κ) (k : κ) (stop : Option Err) (input : Bytes) :
    ∃ y, ServesOne c errText S k stop input y := by
  obtain ⟨q, hq⟩ := C192_total c stop input
  cases q with
  | panics => exact ⟨_, .panics hq⟩
  | faulty e => exact ⟨_, .faulty hq⟩
  | noLength => exact ⟨_, .noLength hq⟩
  | plain m t => exact ⟨_, .plain hq⟩
  | upload m t d r => exact ⟨_, .upload hq⟩

theorem servesOne_unique {errText : Err → Bytes} {S : Service κ} {k : κ} {stop : Option Err} (hf : Final c stop) {input : Bytes}
    {y y' : Res Unit × Bytes × κ} (h : ServesOne c errText S k stop input y) (h' : ServesOne c errText S k stop input y') : y = y' := by
  cases h <;> rename_i a <;> cases h' <;> rename_i b <;> have := C192_unique hf a b <;> simp_all

/-- One connection. -/
theorem servesOne_serves {η σ ρ ε : Type} [LawfulReader σ] [ZeroReader σ] [LawfulWriter σ] [LawfulReader ρ] [ZeroReader ρ]
    {P : σ → Prop} (hra : ReadsApart σ) (hrel : Reliable c P) (hkept : ∀ s n, P s → P (read s n).2)
    {h : Handler c η σ ρ ε} (ho : OnlyReads h) {stands : η → κ → Prop} {S : Service κ} (hp : Provides h stands S) (errText : Err → Bytes)
    (s : σ) (self : η) (k : κ) (hk : stands self k) (hs : P s) {stop : Option Err} (hf : Final c stop)
    (hlr : stop ≠ some .lengthRequired) {input : Bytes} (ht : trace s = input.map .byte ++ endEvents stop)
    {y : Res Unit × Bytes × κ} (hy : ServesOne c errText S k stop input y) :
    ∃ d self', h.serveOne errText (.ok s) self = (y.1, some d, self') ∧ sent d = sent s ++ y.2.1 ∧ stands self' y.2.2 := by
  cases hy with
  | panics hq =>
    obtain ⟨d, h1, h2⟩ := C192_panics hra h ho errText s self stop input ht hq
    exact ⟨d, self, h1, by rw [h2, List.append_nil], hk⟩
  | faulty hq =>
    obtain ⟨d, h1, h2⟩ := C192_faulty hra hrel hkept h ho errText s self hs stop hlr input ht _ hq
    exact ⟨d, self, h1, h2, hk⟩
  | noLength hq =>
    obtain ⟨d, h1, h2⟩ := C192_noLength hra hrel hkept h ho errText s self hs stop hf input ht hq
    exact ⟨d, self, h1, h2, hk⟩
  | plain hq =>
    have hm := hq
    cases hm with
    | plain hm1 hm2 =>
      obtain ⟨r, s1, f1, _⟩ := requests_read hf hm1 s ht
      obtain ⟨g1, g2⟩ := (hp self k hk _ _ r.body).1 hm2
      obtain ⟨d, self', h1, h2, h3⟩ := C192_plain hra hrel hkept h ho errText s self hs stop hf input ht _ _ hq r.body _ _ g1
      exact ⟨d, self', h1, h3, g2 _ h2⟩
  | @upload m target bs r hq =>
    cases hq with
    | upload hq hm hc =>
      obtain ⟨x, s1, f1, f2, f3, f4, f5⟩ := requests_read hf hq s ht
      subst f2; subst f3
      obtain ⟨g1, g2⟩ := (hp self k hk _ _ x.body).2 hm _ _ (by
        intro e he; subst he; exact replyBody_final hf (.told hc)) (f5 _ _ hc)
      obtain ⟨d, self', h1, h2, h3⟩ := serve_reply hra hrel hkept h ho errText s self hs f1 (fun _ hx => by
        obtain ⟨k1, k2⟩ := f4.2 hx
        cases hc with
        | chunked g => exact k1 g
        | limited _ g => exact k2 _ g) g1
      exact ⟨d, self', h1, h3, g2 _ h2⟩

/-! ### C193 -/

/-- The rules say something of every life. -/
theorem C193_total (errText : Err → Bytes) (S : Service κ) (k : κ) (inputs : List (Except Err (Bytes × Option Err))) :
    ∃ outs k', ServesAll c errText S k inputs outs k' := by
  induction inputs generalizing k with
  | nil => exact ⟨_, _, .nil⟩
  | cons x inputs ih =>
    cases x with
    | error e =>
      obtain ⟨outs, k', h⟩ := ih k
      exact ⟨_, _, .refused h⟩
    | ok x =>
      obtain ⟨input, stop⟩ := x
      obtain ⟨⟨res, out, k1⟩, h⟩ := servesOne_total (c := c) errText S k stop input
      by_cases hr : res = .panic
      · subst hr; exact ⟨_, _, .panic h⟩
      · obtain ⟨outs, k', h'⟩ := ih k1
        exact ⟨_, _, .next h hr h'⟩

/-- And one thing only. -/
theorem C193_unique {errText : Err → Bytes} {S : Service κ} {k k' k'' : κ} {inputs : List (Except Err (Bytes × Option Err))}
    (hin : ∀ input stop, .ok (input, stop) ∈ inputs → Final c stop) {outs outs' : List (Res Unit × Option Bytes)}
    (h : ServesAll c errText S k inputs outs k') (h' : ServesAll c errText S k inputs outs' k'') : outs = outs' ∧ k' = k'' := by
  induction h generalizing outs' k'' with
  | nil => cases h'; exact ⟨rfl, rfl⟩
  | refused _ ih =>
    cases h' with
    | refused h' =>
      obtain ⟨rfl, rfl⟩ := ih (fun i s hx => hin i s (by simp [hx])) h'
      exact ⟨rfl, rfl⟩
  | panic h1 =>
    cases h' with
    | panic k1 =>
      have := servesOne_unique (hin _ _ List.mem_cons_self) h1 k1
      simp only [Prod.mk.injEq, true_and] at this
      obtain ⟨rfl, rfl⟩ := this
      exact ⟨rfl, rfl⟩
    | next k1 k2 _ =>
      have := servesOne_unique (hin _ _ List.mem_cons_self) h1 k1
      simp only [Prod.mk.injEq] at this
      exact absurd this.1.symm k2
  | next h1 h2 _ ih =>
    cases h' with
    | panic k1 =>
      have := servesOne_unique (hin _ _ List.mem_cons_self) h1 k1
      simp only [Prod.mk.injEq] at this
      exact absurd this.1 h2
    | next k1 k2 k3 =>
      have := servesOne_unique (hin _ _ List.mem_cons_self) h1 k1
      simp only [Prod.mk.injEq] at this
      obtain ⟨rfl, rfl, rfl⟩ := this
      obtain ⟨rfl, rfl⟩ := ih (fun i s hx => hin i s (by simp [hx])) k3
      exact ⟨rfl, rfl⟩

/-- The server's whole life: the results, what is sent on each connection, and the state in the end are as the rules say. -/
theorem C193_forever {η σ ρ ε : Type} [LawfulReader σ] [ZeroReader σ] [LawfulWriter σ] [LawfulReader ρ] [ZeroReader ρ]
    {P : σ → Prop} (hra : ReadsApart σ) (hrel : Reliable c P) (hkept : ∀ s n, P s → P (read s n).2)
    (h : Handler c η σ ρ ε) (ho : OnlyReads h) (stands : η → κ → Prop) (S : Service κ) (hp : Provides h stands S) (errText : Err → Bytes)
    (accepts : List (Except Err (σ × Bytes × Option Err)))
    (hconn : ∀ s input stop, .ok (s, input, stop) ∈ accepts → P s ∧ sent s = [] ∧ Final c stop ∧ stop ≠ some .lengthRequired ∧
      trace s = input.map .byte ++ endEvents stop) (self : η) (k : κ) (hk : stands self k)
    (outs : List (Res Unit × Option Bytes)) (k' : κ) (hall : ServesAll c errText S k (accepts.map (·.map (·.2))) outs k') :
    (h.serveForever errText (accepts.map fun | .ok x => .ok x.1 | .error e => .err e) self).1.map (fun x => (x.1, x.2.map sent)) = outs ∧
      stands (h.serveForever errText (accepts.map fun | .ok x => .ok x.1 | .error e => .err e) self).2 k' := by
  induction accepts generalizing self k outs with
  | nil => cases hall; exact ⟨rfl, hk⟩
  | cons x accepts ih =>
    have ih := ih fun s i st hy => hconn s i st (by simp [hy])
    rw [List.map_cons]
    cases x with
    | error e =>
      rw [List.map_cons] at hall
      cases hall with
      | refused hall =>
        obtain ⟨h1, h2⟩ := ih self k hk _ hall
        unfold Handler.serveForever Handler.serveOne
        dsimp only
        exact ⟨by rw [List.map_cons, h1]; rfl, h2⟩
    | ok x =>
      obtain ⟨s, input, stop⟩ := x
      obtain ⟨hP, h0, hf, hlr, ht⟩ := hconn s input stop (by simp)
      rw [List.map_cons] at hall
      unfold Handler.serveForever
      dsimp only
      cases hall with
      | panic h1 =>
        obtain ⟨d, self', g1, g2, g3⟩ := servesOne_serves hra hrel hkept ho hp errText s self k hk hP hf hlr ht h1
        rw [g1]
        exact ⟨by simp [g2, h0], g3⟩
      | @next _ k1 _ _ _ _ res out outs h1 h2 h3 =>
        obtain ⟨d, self', g1, g2, g3⟩ := servesOne_serves hra hrel hkept ho hp errText s self k hk hP hf hlr ht h1
        obtain ⟨e1, e2⟩ := ih self' _ g3 _ h3
        rw [g1]
        dsimp only at g2
        cases res with
        | panic => exact absurd rfl h2
        | ok u => exact ⟨by dsimp only; rw [List.map_cons, e1]; simp [g2, h0], e2⟩
        | err e => exact ⟨by dsimp only; rw [List.map_cons, e1]; simp [g2, h0], e2⟩

end

/-- A handler that keeps one text: a PUT that comes whole replaces it, a GET is answered with it. -/
def storeHandler (c : Cfg) [CaseMap] : Handler c Bytes (Duplex Wire Sink) Wire Err :=
  { Handler.defaults c Bytes (Duplex Wire Sink) Wire Err (fun _ => ServerResponse.fromString c .BadRequest b!"cut") with
    get := fun _ text => (.ok (ServerResponse.fromString c .OK text), text)
    put := fun _ body text =>
      match copy c body (Sink.mk [] 0 []) 0 with
      | (.ok _, body, out) => (.ok (ServerResponse.fromString c .Created []), body, out.got)
      | (.error e, body, _) => (.err e, body, text) }

/-- What it is to do. -/
def storeService : Service Bytes := fun m _ d r text =>
  match m, r with
  | .Get, _ => (.ok (), responseHead (utf8 "200 OK") [] ++ text, text)
  | .Put, none => (.ok (), responseHead (utf8 "201 Created") [], d)
  | .Put, some _ => (.ok (), responseHead (utf8 "400 Bad Request") [] ++ utf8 "cut", text)
  | .Post, _ => (.ok (), responseHead (utf8 "405 Method Not Allowed") [] ++ utf8 "PUT not allowed", text)
  | m, _ => (.ok (), responseHead (utf8 "405 Method Not Allowed") [] ++ (utf8 (methodName m) ++ utf8 " not allowed"), text)

theorem storeHandler_reads (c : Cfg) [CaseMap] : OnlyReads (storeHandler c) := by
  refine ⟨fun uri body text => ?_, fun _ _ _ => ⟨[], rfl⟩⟩
  obtain ⟨sizes, h, _⟩ := copy_calls c body (Sink.mk [] 0 []) 0
  refine ⟨sizes, ?_⟩
  rw [← h]
  show (match copy c body (Sink.mk [] 0 []) 0 with
      | (.ok _, body, out) => (Reply.ok (ServerResponse.fromString c .Created []), body, out.got)
      | (.error e, body, _) => (.err e, body, text)).2.1 = _
  rcases copy c body (Sink.mk [] 0 []) 0 with ⟨_ | _, _, _⟩ <;> rfl

/-- A text that is sent. -/
theorem sentReply_text {c : Cfg} {ρ : Type} [LawfulReader ρ] [ZeroReader ρ] (status : HttpStatus) (text : Bytes) :
    SentReply (ServerResponse.fromString c (ρ := ρ) status text) (.ok ()) (responseHead status.display [] ++ text) := by
  obtain ⟨h1, h2, h3, t', h4, h5⟩ := fromString_body (c := c) (ρ := ρ) status text
  have := SentReply.whole (r := ServerResponse.fromString c (ρ := ρ) status text) (by rw [h1]; decide) (by rw [h1]; decide) h4 h5
  rw [h1, h2, h3] at this
  have e : versionedHead 1 1 status.display [] = responseHead status.display [] := by
    unfold versionedHead responseHead
    rw [show utf8 "HTTP/" ++ [UInt8.ofNat (48 + 1), 46, UInt8.ofNat (48 + 1), 32] = utf8 "HTTP/1.1" ++ [32] by decide +kernel]
  rw [← e]; exact this

/-- The handler does that. -/
theorem storeHandler_provides (c : Cfg) [CaseMap] : Provides (storeHandler c) Eq storeService := by
  have said : ∀ (st : HttpStatus) (name : String) (text text' : Bytes), st.display = utf8 name → text = text' →
      SentReply (ServerResponse.fromString c (ρ := Wire) st text) (.ok ()) (responseHead (utf8 name) [] ++ text') := by
    intro st name text text' h h'; rw [← h, ← h']; exact sentReply_text st text
  have no : ∀ (body : HttpBody c (BufReader c (Duplex Wire Sink))) (text text' k : Bytes), text = text' → RepliesAs (storeHandler c) Eq
      ((Reply.ok (ServerResponse.fromString c .MethodNotAllowed text), body, k))
      (.ok (), responseHead (utf8 "405 Method Not Allowed") [] ++ text', k) := by
    intro body text text' k h
    exact ⟨.answer (said _ _ _ _ (by decide +kernel) h), fun self' ha => by cases ha; rfl⟩
  rintro self k rfl m target body
  refine ⟨fun hm => ?_, fun hm d r hf ht => ?_⟩
  · cases m with
    | Put => simp at hm
    | Post => simp at hm
    | Get => exact ⟨.answer (said _ _ _ _ (by decide +kernel) rfl), fun self' ha => by cases ha; rfl⟩
    | Delete => exact no body b!"DELETE not allowed" _ self (by decide +kernel)
    | Head => exact no body b!"HEAD not allowed" _ self (by decide +kernel)
    | Options => exact no body b!"OPTIONS not allowed" _ self (by decide +kernel)
    | Trace => exact no body b!"TRACE not allowed" _ self (by decide +kernel)
  · rcases hm with rfl | rfl
    · have e : handled (storeHandler c) .Put target body self = match copy c body (Sink.mk [] 0 []) 0 with
          | (.ok _, body, out) => (.ok (ServerResponse.fromString c .Created []), body, out.got)
          | (.error e, body, _) => (.err e, body, self) := rfl
      rw [e]
      cases r with
      | none =>
        obtain ⟨n, b, out, h1, _⟩ := (sink_reliable c).copy_ok (r := body) (s := Sink.mk [] 0 []) (n := 0) (by simp)
          (bs := d) (t' := []) (by rw [ht]; exact delivers_map c d []) (by simp [Ended])
        obtain ⟨bs', t2, f1, f2, f3, _⟩ := C33_copy_ok c _ _ _ _ _ _ h1
        have hd : Delivers c (trace body) d [] := by rw [ht]; exact delivers_map c d []
        rw [f1.ended_unique f2 hd (by simp [Ended])] at f3
        rw [h1]
        have hgot : out.got = d := f3
        refine ⟨.answer ?_, fun self' ha => ?_⟩
        · have := said .Created "201 Created" [] [] (by decide +kernel) rfl
          rwa [List.append_nil] at this
        · cases ha; exact hgot
      | some e =>
        obtain ⟨b, out, h1, _⟩ := copy_fails (sink_reliable c) (r := body) (s := Sink.mk [] 0 []) (n := 0) (by simp)
          (bs := d) (e := e) (t' := [.fault e]) (t'' := []) (by rw [ht]; exact delivers_map c d [.fault e])
          ⟨hf e rfl, [], rfl, fun _ h => absurd h List.not_mem_nil⟩
        rw [h1]
        exact ⟨.error (said _ _ _ _ (by decide +kernel) (by decide +kernel)), fun self' ha => by cases ha; rfl⟩
    · exact no body b!"PUT not allowed" _ self (by decide +kernel)

/-- Witness for `C193_forever`, `C193_total` and `C193_unique`: an upload, a connection that is not accepted, an upload that is cut off, and a GET,
which is answered with the first upload. -/
example (c : Cfg) : let _ := asciiCase
    let first := b!"PUT /a HTTP/1.1\r\nContent-Length: 4\r\n\r\nabcd"
    let second := b!"PUT /a HTTP/1.1\r\nTransfer-Encoding: chunked\r\n\r\n2\r\nxy\r\n5\r\nz"
    let third := b!"GET /b HTTP/1.1\r\n\r\n"
    ∀ outs k', ServesAll c (fun _ => []) storeService [] [.ok (first, none), .error isDir, .ok (second, none), .ok (third, none)] outs k' ↔
      outs = [(.ok (), some b!"HTTP/1.1 201 Created\r\n\r\n"), (.err (c.toIo isDir), none),
        (.ok (), some b!"HTTP/1.1 400 Bad Request\r\n\r\ncut"), (.ok (), some b!"HTTP/1.1 200 OK\r\n\r\nabcd")] ∧ k' = b!"abcd" := by
  intro _ first second third
  have hfin : Final c none := by intro e h; simp at h
  obtain ⟨outs0, k0, h0⟩ := C193_total (c := c) (fun _ => []) storeService [] [.ok (first, none), .error isDir, .ok (second, none), .ok (third, none)]
  have hf := C193_forever duplex_readsApart (duplex_reliable (σ := Sink) (sink_reliable c)) (fun _ _ h => h) (storeHandler c)
    (storeHandler_reads c) Eq storeService (storeHandler_provides c) (fun _ => [])
    [.ok (requestConn first, first, none), .error isDir, .ok (requestConn second, second, none), .ok (requestConn third, third, none)]
    (by
      intro s input stop hx
      simp only [List.mem_cons, List.not_mem_nil, or_false, Except.ok.injEq, Prod.mk.injEq, reduceCtorEq, false_or] at hx
      rcases hx with ⟨rfl, rfl, rfl⟩ | ⟨rfl, rfl, rfl⟩ | ⟨rfl, rfl, rfl⟩ <;>
        exact ⟨by simp [requestConn], rfl, hfin, by simp, by rw [requestConn_trace, endEvents, List.append_nil]⟩)
    [] [] rfl outs0 k0 h0
  have e1 : outs0 = [(.ok (), some b!"HTTP/1.1 201 Created\r\n\r\n"), (.err (c.toIo isDir), none),
      (.ok (), some b!"HTTP/1.1 400 Bad Request\r\n\r\ncut"), (.ok (), some b!"HTTP/1.1 200 OK\r\n\r\nabcd")] := by
    rw [← hf.1]; rcases c with ⟨_ | _⟩ <;> decide +kernel
  have e2 : k0 = b!"abcd" := by
    rw [← hf.2]; rcases c with ⟨_ | _⟩ <;> decide +kernel
  subst e1; subst e2
  refine fun outs k' => ⟨fun h => ?_, fun h => by obtain ⟨rfl, rfl⟩ := h; exact h0⟩
  exact C193_unique (by
    intro input stop hx
    simp only [List.mem_cons, List.not_mem_nil, or_false, Except.ok.injEq, Prod.mk.injEq, reduceCtorEq, false_or] at hx
    rcases hx with ⟨_, rfl⟩ | ⟨_, rfl⟩ | ⟨_, rfl⟩ <;> exact hfin) h h0

end HttpIo
