import Verif.Spec.Once
import Verif.Lemmas.Talker
import Verif.Lemmas.Unrepeated
import Verif.Props.Pool

/-! C157: a request is sent at most once. -/

namespace HttpIo
open Spec

section
variable {c : Cfg} {σ τ : Type} [LawfulWriter σ]

/-- Writing only adds. -/
theorem sent_kept (s : σ) : Kept fun s' : σ => sent s <+: sent s' where
  write s' buf h := by
    rcases hw : write s' buf with ⟨e | k, s2⟩
    · dsimp only; rw [LawfulWriter.write_err_sent hw]; exact h
    · dsimp only; rw [LawfulWriter.write_ok_sent hw]; exact h.trans (List.prefix_append _ _)
  flush s' h := by rw [LawfulWriter.flush_sent]; exact h
  writeAll c s' buf h := by
    rcases hw : writeAll c s' buf with ⟨e | _, s2⟩
    · obtain ⟨p, _, h2⟩ := LawfulWriter.writeAll_err_sent hw
      dsimp only; rw [h2]; exact h.trans (List.prefix_append _ _)
    · dsimp only; rw [LawfulWriter.writeAll_ok_sent hw]; exact h.trans (List.prefix_append _ _)

/-- A head whose sending fails. -/
theorem serialize_failed (r : HttpRequest c τ) (hv : r.version = ⟨1, 1⟩) (s s' : σ) (e : Err)
    (h : r.serialize (BufWriter.new c s) = .error (e, s')) :
    sent s' <+: sent s ++ requestHead r.method r.uri r.headers.entries := by
  rw [← request_headPieces r hv]
  unfold HttpRequest.serialize at h
  rcases hw : writePieces c (BufWriter.new c s) r.headPieces with ⟨_ | _, w⟩
  · rw [hw] at h
    simp only [Except.error.injEq, Prod.mk.injEq] at h
    obtain ⟨_, p, h2, h3, _⟩ := writePieces_sent hw
    rw [← h.2]
    refine (BufWriter.dropped_sent w).1.trans ?_
    rw [h3, show sent (BufWriter.new c s) = sent s by rw [BufWriter.sent_eq]; simp [BufWriter.new]]
    exact (List.prefix_append_right_inj _).2 h2
  · rw [hw] at h
    dsimp only at h
    split at h
    · simp at h
    · obtain ⟨_, p, _, h3, h4⟩ := writePieces_sent hw
      rw [h4 rfl, show sent (BufWriter.new c s) = sent s by rw [BufWriter.sent_eq]; simp [BufWriter.new]] at h3
      rw [← h3]
      cases hi : w.intoInner with
      | ok t => rw [hi] at h; simp at h
      | error x =>
        obtain ⟨e', w'⟩ := x
        rw [hi] at h
        simp only [Except.error.injEq, Prod.mk.injEq] at h
        rw [← h.2, ← (BufWriter.intoInner_err hi).1]
        exact (BufWriter.dropped_sent w').1

/-- What is still to be sent of a request. -/
def tailOf : OutgoingRequest c σ → List WCall → Bytes
  | .NoBody _, _ => []
  | .WithBody _, cs => ((written cs).map emitted).flatten ++ b!"0\r\n\r\n"

/-- Calls one of which fails. -/
theorem dropped_prefix {o o' : OutgoingRequest c σ} {cs : List WCall} {ok : Bool} (h : perform o cs = (ok, o')) :
    sent o'.dropped <+: outgoingSent o ++ tailOf o cs := by
  cases o with
  | NoBody s =>
    have h1 := (perform_noBody (c := c) s cs).1
    rw [h] at h1
    dsimp only at h1
    subst h1
    exact List.prefix_append _ _
  | WithBody b =>
    rw [perform_withBody] at h
    rcases hb : perform b cs with ⟨r, b'⟩
    rw [hb] at h
    simp only [Prod.mk.injEq] at h
    rw [← h.2]
    obtain ⟨_, p, h2, h3, _⟩ := OutgoingBody.perform_sent hb
    refine (BufWriter.dropped_sent b'.socket).1.trans ?_
    rw [h3]
    exact (List.prefix_append_right_inj _).2 (h2.trans (List.prefix_append _ _))

/-- Calls that succeed, and the end of the request. -/
theorem complete_prefix {o o' : OutgoingRequest c σ} {cs : List WCall} (h : perform o cs = (true, o')) :
    match o'.complete with
    | .ok s' => sent s' = outgoingSent o ++ tailOf o cs
    | .error (_, s') => sent s' <+: outgoingSent o ++ tailOf o cs := by
  cases o with
  | NoBody s =>
    have h1 := (perform_noBody (c := c) s cs).1
    rw [h] at h1
    dsimp only at h1
    subst h1
    unfold OutgoingRequest.complete
    dsimp only
    have := LawfulWriter.flush_sent s
    rcases hf : flush s with ⟨_ | _, s1⟩ <;> rw [hf] at this <;> dsimp only at this ⊢ <;> rw [this] <;> simp [outgoingSent, tailOf]
  | WithBody b =>
    rw [perform_withBody] at h
    rcases hb : perform b cs with ⟨r, b'⟩
    rw [hb] at h
    simp only [Prod.mk.injEq] at h
    obtain ⟨rfl, rfl⟩ := h
    obtain ⟨_, p, h2, h3, h4⟩ := OutgoingBody.perform_sent hb
    have h4 := h4 rfl
    subst h4
    cases hc : (OutgoingRequest.WithBody b').complete with
    | ok s' =>
      have := (OutgoingBody.complete_ok hc).1
      dsimp only
      rw [this, h3]
      simp [outgoingSent, tailOf]
    | error x =>
      obtain ⟨e, s'⟩ := x
      have := OutgoingBody.complete_err hc
      rw [h3] at this
      simpa [outgoingSent, tailOf] using this

end

section
variable [CaseMap] {c : Cfg} {σ : Type} [PeerSocket σ] [ZeroReader σ]

theorem read_sent_kept (x : Bytes) : ReadKept fun s : σ => sent s = x :=
  ⟨fun s n h => by rw [PeerSocket.read_sent]; exact h⟩

/-- Using a request sends at most the rest of it, once; all of it if there is a response. -/
theorem roundTrip_prefix (cs : List WCall) (sizes : List Nat) (o : OutgoingRequest c σ) :
    sent (roundTrip cs sizes o).2 <+: outgoingSent o ++ tailOf o cs ∧
    ((∃ st hs rs, (roundTrip cs sizes o).1 = .got st hs rs) → sent (roundTrip cs sizes o).2 = outgoingSent o ++ tailOf o cs) := by
  unfold roundTrip
  rcases hp : perform o cs with ⟨_ | _, o'⟩
  · exact ⟨dropped_prefix hp, by simp⟩
  · dsimp only
    have h1 := complete_prefix hp
    unfold OutgoingRequest.finish
    cases hc : o'.complete with
    | error x =>
      obtain ⟨e, s'⟩ := x
      rw [hc] at h1
      exact ⟨h1, by simp⟩
    | ok s' =>
      rw [hc] at h1
      dsimp only at h1 ⊢
      have h2 := (read_sent_kept (σ := σ) (outgoingSent o ++ tailOf o cs)).response (c := c) h1
      rcases hd : HttpResponse.deserialize c s' with ⟨r | e | _, s2⟩
      · rw [hd] at h2
        dsimp only at h2 ⊢
        have hk := (read_sent_kept (σ := σ) (outgoingSent o ++ tailOf o cs))
        have m3 : (r.body).All fun x : BufReader c σ => sent x.inner = outgoingSent o ++ tailOf o cs := by
          obtain ⟨_, enc, len, hnew⟩ := response_under hd
          rw [hnew]; exact HttpBody.All.new h2
        have m4 := ((hk.bufReader (c := c)).body (c := c)).calls (sizes := sizes) m3
        cases hu : (calls r.body sizes).2.under with
        | none =>
          simp only [Option.map_none, Option.getD_none]
          rw [h2]
          exact ⟨List.prefix_refl _, fun _ => rfl⟩
        | some s3 =>
          simp only [Option.map_some, Option.getD_some]
          have := m4.under hu
          rw [this]
          exact ⟨List.prefix_refl _, fun _ => rfl⟩
      · rw [hd] at h2
        dsimp only at h2 ⊢
        rw [h2]
        exact ⟨List.prefix_refl _, by simp⟩
      · rw [hd] at h2
        dsimp only at h2 ⊢
        rw [h2]
        exact ⟨List.prefix_refl _, by simp⟩

theorem roundTrip_adds (s0 : σ) (cs : List WCall) (sizes : List Nat) (o : OutgoingRequest c σ) (ho : sent s0 <+: sent o.socketOf) :
    sent s0 <+: sent (roundTrip cs sizes o).2 := by
  have hk := sent_kept s0
  have hr : ReadKept fun s' : σ => sent s0 <+: sent s' := ⟨fun s n h => by rw [PeerSocket.read_sent]; exact h⟩
  have h1 := hk.outgoing.perform (cs := cs) ho
  unfold roundTrip
  rcases hp : perform o cs with ⟨_ | _, o'⟩ <;> rw [hp] at h1
  · exact hk.droppedRequest h1
  · dsimp only
    have h2 := hk.complete h1
    unfold OutgoingRequest.finish
    cases hc : o'.complete with
    | error x => rw [hc] at h2; exact h2
    | ok s' =>
      rw [hc] at h2
      dsimp only at h2 ⊢
      have h3 := hr.response (c := c) h2
      rcases hd : HttpResponse.deserialize c s' with ⟨r | e | _, s2⟩ <;> rw [hd] at h3
      · dsimp only at h3 ⊢
        have m3 : (r.body).All fun x : BufReader c σ => sent s0 <+: sent x.inner := by
          obtain ⟨_, enc, len, hnew⟩ := response_under hd
          rw [hnew]; exact HttpBody.All.new h3
        have m4 := ((hr.bufReader (c := c)).body (c := c)).calls (sizes := sizes) m3
        cases hu : (calls r.body sizes).2.under with
        | none => exact h3
        | some s3 => exact m4.under hu
      · exact h3
      · exact h3

/-- The connection after a request. -/
theorem ask_adds (q : Ask) (hq : ∀ buf ∈ written q.writes, buf.length < 2 ^ 64) (b : HttpRequestBuilder c)
    (hb : HttpRequestBuilder.new c (HttpUrl.tryFrom q.url) (if q.put then .Put else .Get) = .ok b) (s : σ) :
    ∃ bytes p, q.Bytes bytes ∧ p <+: bytes ∧
      sent (match b.send s with | .ok o => (roundTrip q.writes q.sizes o).2 | .error (_, s') => s') = sent s ++ p ∧
      ((∃ o st hs rs, b.send s = .ok o ∧ (roundTrip q.writes q.sizes o).1 = .got st hs rs) → p = bytes) := by
  cases hu : HttpUrl.tryFrom q.url with
  | err e => rw [hu] at hb; simp [HttpRequestBuilder.new] at hb
  | panic => rw [hu] at hb; simp [HttpRequestBuilder.new] at hb
  | ok v =>
    obtain ⟨hv1, hv2, _⟩ := HttpUrl.tryFrom_inv hu
    obtain ⟨b', g1, g2, g3, g4, g5⟩ := HttpRequestBuilder.new_ok c v (if q.put then .Put else .Get)
    rw [hu, g1] at hb
    simp only [Res.ok.injEq] at hb
    subst hb
    have huri : b'.request.uri = requestTarget { q.url with query := none } := by
      rw [g3, hv1]; unfold requestTarget; dsimp only; rw [List.append_nil]
    have hadd := (sent_kept s).serialize (c := c) (r := b'.request) (s := s) (List.prefix_refl _)
    obtain ⟨chs, c1, c2⟩ := chunksFor (written q.writes) hq
    have hB : q.Bytes (requestHead b'.request.method b'.request.uri b'.request.headers.entries ++
        if q.put then ((written q.writes).map emitted).flatten ++ b!"0\r\n\r\n" else []) := by
      refine ⟨v.host, hv2, ?_⟩
      rw [g2, huri, g5]
      cases q.put with
      | true =>
        refine ⟨chs, c1, ?_⟩
        simp only [ite_true]
        rw [c2, show utf8 "0" = b!"0" by decide +kernel]
        simp [chunkedBytes]
      | false => simp
    cases hs : b'.send s with
    | error x =>
      obtain ⟨e, s'⟩ := x
      have hs' : b'.request.serialize (BufWriter.new c s) = .error (e, s') := hs
      rw [hs'] at hadd
      obtain ⟨p, hp⟩ := hadd
      have := serialize_failed b'.request g4 s s' e hs'
      rw [← hp] at this
      refine ⟨_, p, hB, ((List.prefix_append_right_inj _).1 this).trans (List.prefix_append _ _), hp.symm, by simp⟩
    | ok o =>
      have hs' : b'.request.serialize (BufWriter.new c s) = .ok o := hs
      rw [hs'] at hadd
      obtain ⟨p, hp⟩ := roundTrip_adds s q.writes q.sizes o hadd
      obtain ⟨k1, k2⟩ := roundTrip_prefix q.writes q.sizes o
      obtain ⟨k3, k4⟩ := C18_serialized b'.request s g4 o hs'
      have htail : tailOf o q.writes = if q.put then ((written q.writes).map emitted).flatten ++ b!"0\r\n\r\n" else [] := by
        rw [g2] at k4
        cases hput : q.put with
        | true =>
          rw [hput] at k4
          obtain ⟨ob, rfl⟩ := k4.2 (by simp)
          rfl
        | false =>
          rw [hput] at k4
          cases o with
          | NoBody t => rfl
          | WithBody ob => have := k4.1 ⟨ob, rfl⟩; simp at this
      rw [k3, htail, List.append_assoc, ← hp] at k1 k2
      refine ⟨_, p, hB, (List.prefix_append_right_inj _).1 k1, hp.symm, ?_⟩
      rintro ⟨o1, st, hs, rs, h1, h2⟩
      simp only [Except.ok.injEq] at h1
      subst h1
      exact List.append_cancel_left (k2 ⟨st, hs, rs, h2⟩)

variable {ω α : Type} [DecidableEq α]

omit [PeerSocket σ] [ZeroReader σ] in
theorem exchange_nothing {β : Type} [Writer σ] (N : StreamConnector ω α σ) (x : Exchange c σ β) (cl : HttpClient α σ) (w : ω) (u : Url)
    (hu : x.url = some u) :
    (∀ e, HttpRequestBuilder.new c (HttpUrl.tryFrom u) x.method = .err e → exchange N x cl w = (.err e, cl, w)) ∧
    (HttpRequestBuilder.new c (HttpUrl.tryFrom u) x.method = .panic → exchange N x cl w = (.panic, cl, w)) ∧
    ∀ b, HttpRequestBuilder.new c (HttpUrl.tryFrom u) x.method = .ok b →
      (∀ w1, N.toStreamAddr u w = (.panic, w1) → exchange N x cl w = (.panic, cl, w1)) ∧
      ∀ a w1 w2, N.toStreamAddr u w = (.ok a, w1) → poolGet a cl.streams = none → N.connect a w1 = (.panic, w2) →
        exchange N x cl w = (.panic, cl, w2) := by
  rw [exchange_eq]
  unfold HttpClient.request HttpClient.getStream
  rw [hu]; dsimp only
  refine ⟨fun e h => by rw [h], fun h => by rw [h], fun b hb => ⟨fun w1 h => ?_, fun a w1 w2 h hp hc => ?_⟩⟩
  · rw [hb]; dsimp only
    rw [h]
  · rw [hb]; dsimp only
    rw [h]; dsimp only
    rw [hp]; dsimp only
    rw [hc]

/-- What one request does to the connections. -/
theorem exchange_part (N : StreamConnector ω α σ) (q : Ask) (hq : ∀ buf ∈ written q.writes, buf.length < 2 ^ 64)
    (cl : HttpClient α σ) (w : ω) :
    ∃ part : Option (α × Bytes),
      (∀ a p, part = some (a, p) → ∃ bytes, q.Bytes bytes ∧ p <+: bytes ∧
        (Responded (exchange N (q.exchange (c := c)) cl w).1 → p = bytes)) ∧
      (Responded (exchange N (q.exchange (c := c)) cl w).1 → part ≠ none) ∧
      (∀ a, poolGet a (exchange N (q.exchange (c := c)) cl w).2.1.streams = none → poolGet a cl.streams = none ∧ ∀ p, part ≠ some (a, p)) ∧
      ∀ a s', poolGet a (exchange N (q.exchange (c := c)) cl w).2.1.streams = some s' →
        ∃ s, (poolGet a cl.streams = some s ∨ poolGet a cl.streams = none ∧ ∃ w1 w2, N.connect a w1 = (.ok s, w2)) ∧
          sent s' = sent s ++ addedTo a [part] := by
  have hsame : ∀ (r : Res Outcome) (w' : ω), (¬ Responded r) → exchange N (q.exchange (c := c)) cl w = (r, cl, w') →
      ∃ part : Option (α × Bytes),
      (∀ a p, part = some (a, p) → ∃ bytes, q.Bytes bytes ∧ p <+: bytes ∧
        (Responded (exchange N (q.exchange (c := c)) cl w).1 → p = bytes)) ∧
      (Responded (exchange N (q.exchange (c := c)) cl w).1 → part ≠ none) ∧
      (∀ a, poolGet a (exchange N (q.exchange (c := c)) cl w).2.1.streams = none → poolGet a cl.streams = none ∧ ∀ p, part ≠ some (a, p)) ∧
      ∀ a s', poolGet a (exchange N (q.exchange (c := c)) cl w).2.1.streams = some s' →
        ∃ s, (poolGet a cl.streams = some s ∨ poolGet a cl.streams = none ∧ ∃ w1 w2, N.connect a w1 = (.ok s, w2)) ∧
          sent s' = sent s ++ addedTo a [part] := by
    intro r w' hr he
    rw [he]
    refine ⟨none, by simp, fun h => absurd h hr, fun a h => ⟨h, by simp⟩, fun a s' h => ⟨s', .inl h, by simp [addedTo]⟩⟩
  have hno : ∀ e, ¬ Responded (.err e) := by rintro e ⟨_, _, _, h⟩; simp at h
  have hnp : ¬ Responded .panic := by rintro ⟨_, _, _, h⟩; simp at h
  cases hb : HttpRequestBuilder.new c (HttpUrl.tryFrom q.url) (if q.put then .Put else .Get) with
  | err e => exact hsame (.err e) w (hno e) ((exchange_nothing N _ cl w q.url rfl).1 e hb)
  | panic => exact hsame .panic w hnp ((exchange_nothing N _ cl w q.url rfl).2.1 hb)
  | ok b =>
    rcases ha : N.toStreamAddr q.url w with ⟨a | e | _, w1⟩
    · have hon : ∀ s w2, (poolGet a cl.streams = some s ∧ w2 = w1 ∨ poolGet a cl.streams = none ∧ N.connect a w1 = (.ok s, w2)) →
        ∃ part : Option (α × Bytes),
          (∀ a p, part = some (a, p) → ∃ bytes, q.Bytes bytes ∧ p <+: bytes ∧
            (Responded (exchange N (q.exchange (c := c)) cl w).1 → p = bytes)) ∧
          (Responded (exchange N (q.exchange (c := c)) cl w).1 → part ≠ none) ∧
          (∀ a, poolGet a (exchange N (q.exchange (c := c)) cl w).2.1.streams = none → poolGet a cl.streams = none ∧ ∀ p, part ≠ some (a, p)) ∧
          ∀ a s', poolGet a (exchange N (q.exchange (c := c)) cl w).2.1.streams = some s' →
            ∃ s, (poolGet a cl.streams = some s ∨ poolGet a cl.streams = none ∧ ∃ w1 w2, N.connect a w1 = (.ok s, w2)) ∧
              sent s' = sent s ++ addedTo a [part] := by
        intro s w2 hs
        obtain ⟨cl', h1, h2, h3⟩ := exchange_on N (q.exchange (c := c)) cl w w1 w2 q.url b rfl hb a s ha hs
        obtain ⟨bytes, p, k1, k2, k3, k4⟩ := ask_adds q hq b hb s
        rw [h1]
        dsimp only
        refine ⟨some (a, p), ?_, fun _ => by simp, ?_, ?_⟩
        · intro a' p' he
          simp only [Option.some.injEq, Prod.mk.injEq] at he
          obtain ⟨rfl, rfl⟩ := he
          refine ⟨bytes, k1, k2, ?_⟩
          rintro ⟨st, hs, rs, hr⟩
          cases hse : b.send s with
          | error x => rw [hse] at hr; simp at hr
          | ok o =>
            rw [hse] at hr
            simp only [Res.ok.injEq] at hr
            exact k4 ⟨o, st, hs, rs, hse, hr⟩
        · intro a' hn
          by_cases haa : a' = a
          · subst haa; rw [h2] at hn; simp at hn
          · rw [h3 a' haa] at hn
            refine ⟨hn, fun p' he => ?_⟩
            simp only [Option.some.injEq, Prod.mk.injEq] at he
            exact haa he.1.symm
        · intro a' s' hg
          by_cases haa : a' = a
          · subst haa
            rw [h2] at hg
            simp only [Option.some.injEq] at hg
            refine ⟨s, ?_, ?_⟩
            · rcases hs with ⟨hs, _⟩ | ⟨hs, hc⟩
              · exact .inl hs
              · exact .inr ⟨hs, w1, w2, hc⟩
            · rw [← hg]
              simp only [addedTo, ite_true, List.append_nil]
              exact k3
          · rw [h3 a' haa] at hg
            refine ⟨s', .inl hg, ?_⟩
            simp only [addedTo]
            rw [if_neg (Ne.symm haa), List.append_nil]
      cases hp : poolGet a cl.streams with
      | some s => exact hon s w1 (.inl ⟨hp, rfl⟩)
      | none =>
        rcases hc : N.connect a w1 with ⟨s | e | _, w2⟩
        · exact hon s w2 (.inr ⟨hp, hc⟩)
        · exact hsame (.err e) w2 (hno e) (exchange_connect_failed N _ cl w w1 w2 q.url b rfl hb a e ha hp hc)
        · exact hsame .panic w2 hnp (((exchange_nothing N _ cl w q.url rfl).2.2 b hb).2 a w1 w2 ha hp hc)
    · exact hsame (.err e) w1 (hno e) (exchange_lookup_failed N _ cl w w1 q.url b rfl hb e ha)
    · exact hsame .panic w1 hnp (((exchange_nothing N _ cl w q.url rfl).2.2 b hb).1 w1 ha)

/-- Over every history of requests of a client, on connections that may fail in any way: each request adds to at most one
connection, and what it adds is a beginning of its bytes, all of them if its caller got a response. Nothing else is ever
sent; what a connection was given is what it had been given before the history (or at birth) and then these parts, in the
order of the requests. -/
theorem C157_once (N : StreamConnector ω α σ) (qs : List Ask) (hq : ∀ q ∈ qs, ∀ buf ∈ written q.writes, buf.length < 2 ^ 64)
    (cl : HttpClient α σ) (w : ω) :
    ∃ parts : List (Option (α × Bytes)), parts.length = qs.length ∧
      (∀ (i : Nat) (q : Ask) (part : Option (α × Bytes)) (r : Res Outcome), qs[i]? = some q → parts[i]? = some part →
        (history N (qs.map (Ask.exchange (c := c))) cl w).1[i]? = some r →
        (∀ a p, part = some (a, p) → ∃ bytes, q.Bytes bytes ∧ p <+: bytes ∧ (Responded r → p = bytes)) ∧
        (Responded r → part ≠ none)) ∧
      ∀ a s', poolGet a (history N (qs.map (Ask.exchange (c := c))) cl w).2.1.streams = some s' →
        ∃ s, (poolGet a cl.streams = some s ∨ poolGet a cl.streams = none ∧ ∃ w1 w2, N.connect a w1 = (.ok s, w2)) ∧
          sent s' = sent s ++ addedTo a parts := by
  have hmono : ∀ (qs : List Ask), (∀ q ∈ qs, ∀ buf ∈ written q.writes, buf.length < 2 ^ 64) →
      ∀ (cl : HttpClient α σ) (w : ω),
      ∃ parts : List (Option (α × Bytes)), parts.length = qs.length ∧
      (∀ (i : Nat) (q : Ask) (part : Option (α × Bytes)) (r : Res Outcome), qs[i]? = some q → parts[i]? = some part →
        (history N (qs.map (Ask.exchange (c := c))) cl w).1[i]? = some r →
        (∀ a p, part = some (a, p) → ∃ bytes, q.Bytes bytes ∧ p <+: bytes ∧ (Responded r → p = bytes)) ∧
        (Responded r → part ≠ none)) ∧
      ∀ a s', poolGet a (history N (qs.map (Ask.exchange (c := c))) cl w).2.1.streams = some s' →
        ∃ s, (poolGet a cl.streams = some s ∨ poolGet a cl.streams = none ∧ ∃ w1 w2, N.connect a w1 = (.ok s, w2)) ∧
          sent s' = sent s ++ addedTo a parts := by
    clear hq cl w qs
    intro qs
    induction qs with
    | nil =>
      intro _ cl w
      exact ⟨[], rfl, by simp, fun a s' h => ⟨s', .inl h, by simp [addedTo]⟩⟩
    | cons q qs ih =>
      intro hq cl w
      have hcons : history N ((q :: qs).map (Ask.exchange (c := c))) cl w =
          ((exchange N (q.exchange (c := c)) cl w).1 :: (history N (qs.map Ask.exchange) (exchange N (q.exchange (c := c)) cl w).2.1
            (exchange N (q.exchange (c := c)) cl w).2.2).1,
          (history N (qs.map Ask.exchange) (exchange N (q.exchange (c := c)) cl w).2.1
            (exchange N (q.exchange (c := c)) cl w).2.2).2) := rfl
      rw [hcons]
      obtain ⟨part, e1, e2, e3, e4⟩ := exchange_part (c := c) N q (hq q (by simp)) cl w
      obtain ⟨parts, f1, f2, f3⟩ := ih (fun q' h => hq q' (by simp [h])) (exchange N (q.exchange (c := c)) cl w).2.1
        (exchange N (q.exchange (c := c)) cl w).2.2
      refine ⟨part :: parts, by simp [f1], ?_, ?_⟩
      · intro i q' part' r h1 h2 h3
        cases i with
        | zero =>
          simp only [List.getElem?_cons_zero, Option.some.injEq] at h1 h2 h3
          subst h1 h2 h3
          exact ⟨e1, e2⟩
        | succ i =>
          simp only [List.getElem?_cons_succ] at h1 h2 h3
          exact f2 i q' part' r h1 h2 h3
      · intro a s' hg
        obtain ⟨s1, g1, g2⟩ := f3 a s' hg
        have hadd : addedTo a (part :: parts) = addedTo a [part] ++ addedTo a parts := by
          cases part with
          | none => simp [addedTo]
          | some x => obtain ⟨a', p⟩ := x; simp only [addedTo]; split <;> simp
        rw [hadd]
        rcases g1 with g1 | ⟨g1, g1'⟩
        · obtain ⟨s, k1, k2⟩ := e4 a s1 g1
          exact ⟨s, k1, by rw [g2, k2, List.append_assoc]⟩
        · obtain ⟨k1, k2⟩ := e3 a g1
          have : addedTo a [part] = [] := by
            cases part with
            | none => rfl
            | some x =>
              obtain ⟨a', p⟩ := x
              simp only [addedTo]
              rw [if_neg]
              intro h; subst h
              exact k2 p rfl
          exact ⟨s1, .inr ⟨k1, g1'⟩, by rw [g2, this, List.nil_append]⟩
  exact hmono qs hq cl w

end

section
variable [CaseMap] {c : Cfg} {ω α σ β ρ : Type}

/-- A use of a client tries at most one connection. -/
theorem C157_attempts [DecidableEq α] [Writer σ] (N : StreamConnector ω α σ) (x : Exchange c σ β) (cl : HttpClient α σ)
    (w : ω) (log : List (α × Bool)) :
    ∃ new, (exchange (logged N) x cl (w, log)).2.2.2 = log ++ new ∧ new.length ≤ 1 := by
  rw [exchange_eq]
  unfold HttpClient.request
  cases x.url with
  | none => exact ⟨[], by simp, by simp⟩
  | some u =>
    dsimp only
    cases HttpRequestBuilder.new c (HttpUrl.tryFrom u) (if x.put then .Put else .Get) with
    | err e => exact ⟨[], by simp, by simp⟩
    | panic => exact ⟨[], by simp, by simp⟩
    | ok b =>
      dsimp only
      have hg : ∃ r cl' w' new, cl.getStream (logged N) u (w, log) = (r, cl', w', log ++ new) ∧ new.length ≤ 1 := by
        unfold HttpClient.getStream
        obtain ⟨r, w1, h1⟩ := logged_addr N u (w, log)
        rw [h1]
        cases r with
        | err e => exact ⟨_, _, _, [], by simp; exact ⟨rfl, rfl, rfl⟩, by simp⟩
        | panic => exact ⟨_, _, _, [], by simp; exact ⟨rfl, rfl, rfl⟩, by simp⟩
        | ok a =>
          dsimp only
          cases hp : poolGet a cl.streams with
          | some s => exact ⟨_, _, _, [], by simp; exact ⟨rfl, rfl, rfl⟩, by simp⟩
          | none =>
            dsimp only
            obtain ⟨r, w2, h2⟩ := logged_connect N a (w1, log)
            rw [h2]
            cases r <;> exact ⟨_, _, _, _, rfl, by simp⟩
      obtain ⟨r, cl', w', new, h1, h2⟩ := hg
      rw [h1]
      cases r with
      | err e => exact ⟨new, rfl, h2⟩
      | panic => exact ⟨new, rfl, h2⟩
      | ok as =>
        obtain ⟨a, s⟩ := as
        dsimp only
        cases b.send s with
        | error es => exact ⟨new, rfl, h2⟩
        | ok o => exact ⟨new, rfl, h2⟩

/-- So do the functions that make one request. -/
theorem C157_oneshot [DecidableEq α] [LawfulReader σ] [Writer σ] [LawfulReader ρ] (N : StreamConnector ω α σ) (b : HttpRequestBuilder c) (u : Url)
    (body : ρ) (w : ω) (log : List (α × Bool)) :
    ∃ new, (sendRequest c (logged N) b u body (w, log)).2.2 = log ++ new ∧ new.length ≤ 1 := by
  unfold sendRequest
  obtain ⟨r, w1, h1⟩ := logged_addr N u (w, log)
  rw [h1]
  cases r with
  | err e => exact ⟨[], by simp, by simp⟩
  | panic => exact ⟨[], by simp, by simp⟩
  | ok a =>
    dsimp only
    obtain ⟨r, w2, h2⟩ := logged_connect N a (w1, log)
    rw [h2]
    cases r with
    | err e => exact ⟨_, rfl, by simp⟩
    | panic => exact ⟨_, rfl, by simp⟩
    | ok s =>
      refine ⟨[(a, true)], ?_, Nat.le_refl 1⟩
      dsimp only
      repeat' split
      all_goals rfl

end

section
variable [CaseMap] {c : Cfg} {ω α σ ρ : Type} [PeerSocket σ] [ZeroReader σ] [LawfulReader ρ]

/-- What a one-shot request that was answered has sent over the connection that was opened for it. -/
theorem sendRequest_sent (hu : Unrepeated c σ) (N : StreamConnector ω α σ) (b : HttpRequestBuilder c) (hv : b.request.version = ⟨1, 1⟩)
    (u : Url) (body : ρ) (w w' : ω) (x : HttpBody c (BufReader c σ)) (h : sendRequest c N b u body w = (.ok x, w')) :
    ∃ a w1 s r, ∃ (bufs : List Bytes) (t' : List Ev), N.toStreamAddr u w = (.ok a, w1) ∧ N.connect a w1 = (.ok s, w') ∧ x.under = some r ∧
      (b.request.method.hasBody = true → Delivers c (trace body) bufs.flatten t' ∧ Ended c t' ∧ ∀ buf ∈ bufs, buf.length < 2 ^ 64) ∧
      sent r.inner = sent s ++ requestHead b.request.method b.request.uri b.request.headers.entries ++
        if b.request.method.hasBody then (bufs.map emitted).flatten ++ b!"0\r\n\r\n" else [] := by
  unfold sendRequest at h
  rcases ha : N.toStreamAddr u w with ⟨_ | _ | _, w1⟩ <;> rw [ha] at h <;> simp only [Prod.mk.injEq, reduceCtorEq, false_and] at h
  rename_i a
  rcases hc : N.connect a w1 with ⟨_ | _ | _, w2⟩ <;> rw [hc] at h <;> simp only [Prod.mk.injEq, reduceCtorEq, false_and] at h
  rename_i d
  unfold HttpRequestBuilder.send at h
  cases hs : b.request.serialize (BufWriter.new c d) with
  | error e => rw [hs] at h; simp at h
  | ok o =>
    rw [hs] at h
    dsimp only at h
    obtain ⟨k1, k2⟩ := C18_serialized b.request d hv o hs
    rcases hcp : copy c body o 0 with ⟨_ | _, body', o'⟩
    · rw [hcp] at h; simp at h
    · rw [hcp] at h
      dsimp only at h
      unfold OutgoingRequest.finish at h
      cases hcm : o'.complete with
      | error e => rw [hcm] at h; simp at h
      | ok d' =>
        rw [hcm] at h
        dsimp only at h
        rcases hf : HttpResponse.deserialize c d' with ⟨r | _ | _, d''⟩ <;> rw [hf] at h <;> dsimp only at h
        · by_cases hok : r.status = .OK
          · rw [if_neg (by simp [hok])] at h
            simp only [Prod.mk.injEq, Res.ok.injEq] at h
            obtain ⟨hun, _⟩ := response_under hf
            have hsent := (read_sent_kept (σ := σ) (sent d')).response (c := c) (s := d') rfl
            rw [hf] at hsent
            dsimp only at hsent
            cases o with
            | NoBody t =>
              have ho' := copy_noBody hcp
              subst ho'
              have hn : b.request.method.hasBody = false := by
                cases hm : b.request.method <;> first | rfl | (obtain ⟨z, hz⟩ := k2.2 (by simp [hm]); simp at hz)
              have hpre := complete_prefix (c := c) (o := .NoBody t) (o' := .NoBody t) (cs := []) rfl
              rw [hcm] at hpre
              refine ⟨a, w1, d, _, [], [], rfl, by rw [hc, h.2], by rw [← h.1]; exact hun, by simp [hn], ?_⟩
              rw [hn, ← k1]
              dsimp only at hpre
              show sent d'' = _
              rw [hsent, hpre]
              rfl
            | WithBody ob =>
              have hn : b.request.method.hasBody = true := by
                rcases k2.1 ⟨ob, rfl⟩ with hm | hm | hm <;> rw [hm] <;> rfl
              obtain ⟨bufs, b', t', f1, f2, f3, f4, f5⟩ := hu.copy hcp
              subst f1
              have hp : perform (OutgoingRequest.WithBody ob) (bufs.map .write) = (true, .WithBody b') := by
                rw [perform_withBody, f2]
              have hpre := complete_prefix hp
              rw [hcm] at hpre
              refine ⟨a, w1, d, _, bufs, t', rfl, by rw [hc, h.2], by rw [← h.1]; exact hun, fun _ => ⟨f3, f4, f5⟩, ?_⟩
              rw [hn, ← k1]
              dsimp only at hpre
              show sent d'' = _
              rw [hsent, hpre]
              unfold tailOf
              dsimp only
              rw [written_map]
              rfl
          · rw [if_pos hok] at h; simp at h
        · simp at h
        · simp at h

/-- The one-shot functions send the request once, too: if `get` gives a response, the connection it came over, which was opened
for it, was sent the head of one request and nothing else. -/
theorem C157_get_once (N : StreamConnector ω α σ) (hu : Unrepeated c σ) (u : Url) (w w' : ω) (x : HttpBody c (BufReader c σ))
    (h : clientGet c N (some u) w = (.ok x, w')) :
    ∃ a w1 s r host, N.toStreamAddr u w = (.ok a, w1) ∧ N.connect a w1 = (.ok s, w') ∧ x.under = some r ∧ u.host = some host ∧
      sent r.inner = sent s ++ requestHead .Get (requestTarget { u with query := none }) (standardHeaders .Get host) := by
  unfold clientGet HttpRequestBuilder.get at h
  dsimp only at h
  cases hh : HttpUrl.tryFrom u with
  | err e => rw [hh] at h; simp [HttpRequestBuilder.new] at h
  | panic => rw [hh] at h; simp [HttpRequestBuilder.new] at h
  | ok v =>
    obtain ⟨hv1, hv2, _⟩ := HttpUrl.tryFrom_inv hh
    obtain ⟨b, g1, g2, g3, g4, g5⟩ := HttpRequestBuilder.new_ok c v .Get
    have huri : b.request.uri = requestTarget { u with query := none } := by
      rw [g3, hv1]; unfold requestTarget; dsimp only; rw [List.append_nil]
    rw [hh, g1] at h
    obtain ⟨a, w1, s, r, bufs, t', k1, k2, k3, _, k5⟩ := sendRequest_sent hu N b g4 u EmptyReader.mk w w' x h
    rw [g2, huri, g5] at k5
    exact ⟨a, w1, s, r, v.host, k1, k2, k3, hv2, by rw [k5]; simp [HttpMethod.hasBody]⟩

/-- And if `put` does: one head, the contents of the reader once, in chunks, and the end of the body. -/
theorem C157_put_once (N : StreamConnector ω α σ) (hu : Unrepeated c σ) (u : Url) (body : ρ) (w w' : ω) (x : HttpBody c (BufReader c σ))
    (h : clientPut c N (some u) body w = (.ok x, w')) :
    ∃ a w1 s r host chs t', N.toStreamAddr u w = (.ok a, w1) ∧ N.connect a w1 = (.ok s, w') ∧ x.under = some r ∧ u.host = some host ∧
      (∀ ch ∈ chs, ch.WellFormed) ∧ Delivers c (trace body) (chunkedData chs) t' ∧ Ended c t' ∧
      sent r.inner = sent s ++ requestHead .Put (requestTarget { u with query := none }) (standardHeaders .Put host) ++
        chunkedBytes chs (utf8 "0") ++ [13, 10] := by
  unfold clientPut HttpRequestBuilder.put at h
  dsimp only at h
  cases hh : HttpUrl.tryFrom u with
  | err e => rw [hh] at h; simp [HttpRequestBuilder.new] at h
  | panic => rw [hh] at h; simp [HttpRequestBuilder.new] at h
  | ok v =>
    obtain ⟨hv1, hv2, _⟩ := HttpUrl.tryFrom_inv hh
    obtain ⟨b, g1, g2, g3, g4, g5⟩ := HttpRequestBuilder.new_ok c v .Put
    have huri : b.request.uri = requestTarget { u with query := none } := by
      rw [g3, hv1]; unfold requestTarget; dsimp only; rw [List.append_nil]
    rw [hh, g1] at h
    obtain ⟨a, w1, s, r, bufs, t', k1, k2, k3, k4, k5⟩ := sendRequest_sent hu N b g4 u body w w' x h
    obtain ⟨m1, m2, m3⟩ := k4 (by rw [g2]; rfl)
    obtain ⟨chs, c1, c3⟩ := chunksFor bufs m3
    rw [g2, huri, g5] at k5
    refine ⟨a, w1, s, r, v.host, chs, t', k1, k2, k3, hv2, c1.1, ?_, m2, ?_⟩
    · rw [chunkedData_for c1]
      exact m1
    · rw [k5, if_pos (by rfl), c3, show utf8 "0" = b!"0" by decide +kernel]
      simp [chunkedBytes]

end

/-- A connection over which the peer says nothing and then fails, and whose first write is cut short and fails. -/
def cutShort : Talker where
  reply _ := []
  mono _ _ := List.prefix_refl _
  idle := none
  seg := 100
  sink := ⟨[], 0, [.accept 2, .fault .other]⟩
  got := []
  got_le := List.prefix_refl _
  dead := false
  dead_got := by simp

/-- Witness for `C157_once`: of the first of three requests two bytes are sent, the second, to another address, has no
connection, the third is sent whole; no caller gets a response. -/
example : let _ := asciiCase
    let N : StreamConnector Unit Bytes Talker :=
      ⟨fun a w => (if a = b!"b" then .err .other else .ok cutShort, w), fun u w => (.ok (u.host.getD []), w)⟩
    let get (host : Bytes) : Ask := ⟨false, ⟨b!"http", some host, none, [], none, none, [], none⟩, [], [10]⟩
    let h := history (c := ⟨false⟩) N ([get b!"a", get b!"b", get b!"a"].map Ask.exchange) HttpClient.new ()
    (match poolGet b!"a" h.2.1.streams with
      | some s => decide (sent s = b!"GE" ++ b!"GET / HTTP/1.1\r\naccept: */*\r\nhost: a\r\nuser-agent: http_io\r\n\r\n")
      | none => false) = true ∧
    addedTo b!"a" [some (b!"a", b!"GE"), none, some (b!"a", b!"GET")] = b!"GEGET" := by
  decide +kernel

/-- Witness for `C157_attempts` and `C157_oneshot`: sending fails on the new connection, there is no second attempt. -/
example : let _ := asciiCase
    let N : StreamConnector Unit Bytes Talker := ⟨fun _ w => (.ok cutShort, w), fun u w => (.ok (u.host.getD []), w)⟩
    let u : Url := ⟨b!"http", some b!"a", none, [], none, none, [], none⟩
    let q : Ask := ⟨false, u, [], [10]⟩
    let x := exchange (c := ⟨false⟩) (logged N) q.exchange HttpClient.new ((), [])
    let y := clientGet ⟨false⟩ (logged N) (some u) ((), [])
    (match x.1 with | .err e => decide (e = .other) | _ => false) = true ∧ x.2.2.2 = [(b!"a", true)] ∧
    (match y.1 with | .err e => decide (e = .other) | _ => false) = true ∧ y.2.2 = [(b!"a", true)] := by
  decide +kernel

/-- A connection over which the peer answers, without waiting for the request; writes are cut short and interrupted. -/
def eager : Talker where
  reply _ := b!"HTTP/1.1 200 OK\r\n\r\nhi"
  mono _ _ := List.prefix_refl _
  idle := none
  seg := 5
  sink := ⟨[], 0, [.accept 2, .accept 9]⟩
  got := []
  got_le := List.nil_prefix
  dead := false
  dead_got := by simp

/-- Witness for `C157_get_once` and `C157_put_once`: both give a response; a body in two pieces is sent in two chunks. -/
example : let _ := asciiCase
    let N : StreamConnector Unit Bytes Talker := ⟨fun _ w => (.ok eager, w), fun u w => (.ok (u.host.getD []), w)⟩
    let u : Url := ⟨b!"http", some b!"a", none, [], none, none, [], none⟩
    (∀ c, Unrepeated c Talker) ∧
    (match clientGet ⟨false⟩ N (some u) () with
      | (.ok x, _) => (x.under.map fun r => sent r.inner) == some b!"GET / HTTP/1.1\r\naccept: */*\r\nhost: a\r\nuser-agent: http_io\r\n\r\n"
      | _ => false) = true ∧
    (match clientPut ⟨false⟩ N (some u) (Wire.mk [.data b!"ab", .data b!"c"]) () with
      | (.ok x, _) => (x.under.map fun r => sent r.inner) ==
          some (b!"PUT / HTTP/1.1\r\naccept: */*\r\nhost: a\r\ntransfer-encoding: chunked\r\nuser-agent: http_io\r\n\r\n" ++
            b!"2\r\nab\r\n1\r\nc\r\n0\r\n\r\n")
      | _ => false) = true := by
  refine ⟨fun c => Spec.PlainWriteAll.unrepeated fun _ _ _ => rfl, ?_, ?_⟩ <;> decide +kernel

end HttpIo
