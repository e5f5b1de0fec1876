import Verif.Spec.CutCall
import Verif.Props.Attempts
import Verif.Props.CutUpload

/-! C197: a call that breaks off on its way to the server. -/

namespace HttpIo
open Spec

theorem chunkT_data_begins {c : Cfg} {k : Nat} {t : List Ev} {d : Bytes} {e : Err} (h : chunkT c [] (some k) t = d.map .byte ++ [.fault e]) :
    ∃ x t2, t = x.map .byte ++ t2 ∧ (d = x ∧ x.length ≤ k ∨
      x.length = k ∧ ∃ d', d = x ++ d' ∧ chunkT c [] (some 0) t2 = d'.map .byte ++ [.fault e]) := by
  induction k generalizing t d with
  | zero => exact ⟨[], t, rfl, .inr ⟨rfl, d, rfl, h⟩⟩
  | succ k ih =>
    cases t with
    | nil =>
      rw [chunkT] at h
      cases d with
      | nil => exact ⟨[], [], rfl, .inl ⟨rfl, by simp⟩⟩
      | cons => simp at h
    | cons ev t =>
      cases ev with
      | fault e' =>
        rw [chunkT] at h
        cases d with
        | nil => exact ⟨[], _, rfl, .inl ⟨rfl, by simp⟩⟩
        | cons => simp at h
      | byte b =>
        rw [chunkT] at h
        cases d with
        | nil => simp at h
        | cons b' d =>
          simp only [List.map_cons, List.cons_append, List.cons.injEq, Ev.byte.injEq] at h
          obtain ⟨rfl, h⟩ := h
          obtain ⟨x, t2, rfl, ⟨rfl, h2⟩ | ⟨rfl, d', rfl, h4⟩⟩ := ih h
          · exact ⟨b :: d, t2, by simp, .inl ⟨rfl, by simp; omega⟩⟩
          · exact ⟨b :: x, t2, by simp, .inr ⟨by simp, d', by simp, h4⟩⟩

/-- A chunked body read up to an error, from a stream that has a part of the chunks, has a beginning of their data. -/
theorem chunkT_begins {c : Cfg} {t : List Ev} {d more last : Bytes} {chs : List Chunk} {e : Err}
    (h : chunkT c [] none t = d.map .byte ++ [.fault e]) (hp : bytesOf t <+: chunkedBytes chs last ++ more)
    (hs : ∀ ch ∈ chs, ch.Sized) (hl : UnsignedText 16 last 0) : d <+: chunkedData chs := by
  have line : ∀ {t1 : List Ev} {l x y : Bytes}, expectNextT c t = (.ok l, t1) → RawLine x →
      bytesOf t <+: x ++ [13, 10] ++ y → l = x ∧ bytesOf t1 <+: y := by
    intro t1 l x y h1 hx hy
    obtain ⟨k1, k2⟩ := expectNextT_ok_inv h1
    rw [delivers_bytesOf k2] at hy
    obtain ⟨z, hz⟩ := hy
    rw [List.append_assoc] at hz
    obtain ⟨g1, g2⟩ := rawLine_unique k1 hx hz
    exact ⟨g1, z, g2⟩
  by_cases hd : d = []
  · rw [hd]; exact List.nil_prefix
  have start : ∃ l t1 size, expectNextT c t = (.ok l, t1) ∧ fromStrRadix 16 u64Max l = some size := by
    rw [chunkT_size] at h
    rcases hx : expectNextT c t with ⟨e | l, t1⟩ <;> rw [hx] at h <;> dsimp only at h
    · cases d <;> simp at h hd
    · cases hr : fromStrRadix 16 u64Max l with
      | none => rw [hr] at h; cases d <;> simp at h hd
      | some size => exact ⟨l, t1, size, rfl, hr⟩
  obtain ⟨l, t1, size, h1, h2⟩ := start
  rw [chunkT_size, h1] at h
  dsimp only at h
  rw [h2] at h
  dsimp only at h
  cases chs with
  | nil =>
    have hb : chunkedBytes [] last ++ more = last ++ [13, 10] ++ more := by simp [chunkedBytes]
    rw [hb] at hp
    obtain ⟨rfl, _⟩ := line h1 (unsignedText_rawLine hl) hp
    rw [parseSize hl (by decide)] at h2
    rw [if_pos (by simpa using h2.symm)] at h
    simp at h
  | cons ch chs =>
    obtain ⟨g1, g2, g3, g4⟩ := hs ch (by simp)
    have hb : chunkedBytes (ch :: chs) last ++ more =
        ch.size ++ [13, 10] ++ (ch.data ++ (ch.tail ++ (chunkedBytes chs last ++ more))) := by
      simp [chunkedBytes, Chunk.bytes]
    rw [hb] at hp
    obtain ⟨rfl, h3⟩ := line h1 (unsignedText_rawLine g1) hp
    rw [parseSize g1 g3] at h2
    obtain rfl : ch.data.length = size := by simpa using h2
    rw [if_neg (by have := List.length_pos_iff.2 g2; omega)] at h
    have hcd : chunkedData (ch :: chs) = ch.data ++ chunkedData chs := by simp [chunkedData]
    rw [hcd]
    obtain ⟨x, t2, rfl, ⟨rfl, k1⟩ | ⟨k1, d', rfl, k4⟩⟩ := chunkT_data_begins h
    · rw [bytesOf_map] at h3
      have := (List.prefix_append d _).trans h3
      exact (List.prefix_of_prefix_length_le this (List.prefix_append ch.data _) k1).trans (List.prefix_append _ _)
    rw [bytesOf_map] at h3
    obtain ⟨z, hz⟩ := h3
    rw [List.append_assoc] at hz
    obtain ⟨rfl, hz⟩ := List.append_inj hz k1
    refine (List.prefix_append_right_inj _).2 ?_
    by_cases hd' : d' = []
    · rw [hd']; exact List.nil_prefix
    rw [chunkT_end] at k4
    rcases hx : readExactT c 2 t2 with ⟨e | two, t3⟩ <;> rw [hx] at k4 <;> dsimp only at k4
    · cases d' <;> simp at k4 hd'
    · obtain ⟨m1, m2⟩ := readExactT_ok_inv hx
      rename_i hz2
      rw [m2, List.append_assoc] at hz2
      obtain ⟨_, hz⟩ := List.append_inj hz2 (by rw [m1, g4])
      have hlt := expectNextT_lt h1
      have hlt2 := readExactT_lt (by omega) hx
      exact chunkT_begins k4 ⟨z, hz⟩ (fun c hc => hs c (by simp [hc])) hl
termination_by t.length
decreasing_by simp only [List.length_append, List.length_map] at hlt; omega

section
variable [CaseMap]

/-- No shortened head is taken for a request. -/
theorem cut_head {σ : Type} [LawfulReader σ] [ZeroReader σ] (c : Cfg) (s s' : σ) (m : HttpMethod) (target : Bytes) (headers : HttpHeaders)
    (after : Bytes) (ht : SendableTarget target) (hh : SendableHeaders headers.entries) (hl : LengthOk headers.entries)
    (hp : bytesOf (trace s) <+: requestHead m target headers.entries ++ after)
    (r : HttpRequest c σ) (h : HttpRequest.deserialize c s = (.ok r, s')) :
    r.method = m ∧ r.uri = target ∧ FramedBy headers.entries (framing r.body) ∧ bytesOf (trace s') <+: after := by
  obtain ⟨line, lines, h1, h2, h3, h4, h5⟩ := C10_request c s s' r h
  rw [delivers_bytesOf h3] at hp
  obtain ⟨z, hz⟩ := hp
  let u : Evs := ⟨(requestHead m target headers.entries ++ after).map .byte⟩
  obtain ⟨r1, u1, g1, g2, g3, _, g5, g6, _, g8⟩ := h5 Evs u ((bytesOf (trace s') ++ z).map .byte) (by
    have := delivers_map c (blockBytes (line :: lines)) ((bytesOf (trace s') ++ z).map .byte)
    rw [← List.map_append, ← List.append_assoc, hz] at this
    exact this)
  obtain ⟨r2, u2, k1, k2, k3, _, k5, k6, _, k8⟩ := C18_roundtrip c u m target headers (after.map .byte) ht hh hl (by
      have := delivers_map c (requestHead m target headers.entries) (after.map .byte)
      rw [← List.map_append] at this
      exact this)
  rw [g1] at k1
  simp only [Prod.mk.injEq, Res.ok.injEq] at k1
  obtain ⟨rfl, rfl⟩ := k1
  rw [g8] at k8
  have hrest : bytesOf (trace s') ++ z = after := by
    have := congrArg bytesOf k8
    have e : ∀ x : Bytes, bytesOf (x.map .byte) = x := fun x => by simpa [bytesOf] using bytesOf_map x []
    rwa [e, e] at this
  exact ⟨g2.symm.trans k2, g3.symm.trans k3, by rw [← g6]; exact k6, ⟨z, hrest⟩⟩

variable {c c' : Cfg} {ρ σ : Type} [LawfulReader ρ] [ZeroReader ρ] [LawfulWriter σ]

omit [ZeroReader ρ] in
/-- What the server reads of a beginning of a request that the client has sent, if it reads a request. -/
theorem cut_read (d d1 : Duplex ρ σ) (hd : sent d.wr = []) (u : Url) (host : Bytes) (m : HttpMethod)
    (b : HttpRequestBuilder c) (hb : HttpRequestBuilder.new c (HttpUrl.tryFrom u) m = .ok b) (hhost : u.host = some host)
    (htext : IsText host ∧ ¬ HasCrLf host) (htarget : SendableTarget (requestTarget { u with query := none }))
    (adds : List (Bytes × Bytes)) (ha : ∀ kv ∈ adds, Addable kv)
    (o o' : OutgoingRequest c (Duplex ρ σ)) (hsend : (adds.foldl (fun b kv => b.addHeader kv.1 kv.2) b).send d = .ok o)
    (cs : List WCall) (hlen : ∀ buf ∈ written cs, buf.length < 2 ^ 64) (hp : perform o cs = (true, o'))
    (hcomp : o'.complete = .ok d1) {τ : Type} [LawfulReader τ] [ZeroReader τ] (s : τ) (hs : bytesOf (trace s) <+: wire d1.wr)
    (rq : HttpRequest c' (BufReader c' τ)) (s1 : BufReader c' τ) (hrq : HttpRequest.deserialize c' (BufReader.new c' s) = (.ok rq, s1)) :
    rq.method = m ∧ rq.uri = requestTarget { u with query := none } ∧ Acceptable rq ∧
      (Hands m → ∀ data : Bytes, (trace rq.body = data.map .byte → data = (written cs).flatten) ∧
        ∀ e, trace rq.body = data.map .byte ++ [.fault e] → data <+: (written cs).flatten) := by
  cases ht : HttpUrl.tryFrom u with
  | err e => rw [ht] at hb; simp [HttpRequestBuilder.new] at hb
  | panic => rw [ht] at hb; simp [HttpRequestBuilder.new] at hb
  | ok v =>
  rw [ht] at hb
  obtain ⟨v1, v2, _⟩ := HttpUrl.tryFrom_inv ht
  have hvh : v.host = host := by rw [hhost] at v2; simpa using v2.symm
  obtain ⟨k1, k2, k3, k4, k5, k6⟩ := built_headers hb (by rw [hvh]; exact htext) adds ha
  generalize hr : (adds.foldl (fun b kv => b.addHeader kv.1 kv.2) b).request = r at *
  have hser : r.serialize (BufWriter.new c d) = .ok o := by rw [← hr]; exact hsend
  have huri : r.uri = requestTarget { u with query := none } := by
    rw [k2, v1]; unfold requestTarget; dsimp only; rw [List.append_nil]
  rw [← huri] at htarget ⊢
  obtain ⟨e1, e2⟩ := C18_serialized r d k3 o hser
  rw [k1] at e1 e2
  obtain ⟨m1, m2, m3⟩ := sent_request hlen hp hcomp
  have hd' : sent d = [] := hd
  rw [hd', List.nil_append] at e1
  obtain ⟨after, w1, w2⟩ : ∃ after : Bytes, wire d1 = requestHead m r.uri r.headers.entries ++ after ∧
      (Carries m → ∃ chs, ChunksFor chs (written cs) ∧ after = chunkedBytes chs b!"0" ++ b!"\r\n") := by
    cases o with
    | NoBody t =>
      obtain ⟨q1, _⟩ := m2 t rfl
      refine ⟨[], ?_, ?_⟩
      · rw [m1, q1, show sent t = outgoingSent (.NoBody (c := c) t) from rfl, e1, List.append_nil]
      · intro hm; obtain ⟨_, hx⟩ := e2.2 hm; simp at hx
    | WithBody ob =>
      obtain ⟨chs, q1, q2⟩ := m3 ob rfl
      refine ⟨chunkedBytes chs b!"0" ++ b!"\r\n", ?_, fun _ => ⟨chs, q1, rfl⟩⟩
      rw [m1, q2, show sent ob.socket = outgoingSent (.WithBody ob) from rfl, e1, List.append_assoc]
  rw [show wire d1.wr = wire d1 from rfl, w1] at hs
  obtain ⟨f2, f3, f4, f6⟩ := cut_head c' (BufReader.new c' s) s1 m r.uri r.headers after htarget k4 k5 (by rwa [BufReader.trace_new]) rq hrq
  refine ⟨f2, f3, ?_, ?_⟩
  · intro hm hf
    rw [f2] at hm
    have := k6 (by unfold Carries; rcases hm with rfl | rfl <;> simp)
    rw [hf] at f4
    cases f4 with
    | tilClose h1 => exact h1 this
  · intro hm data
    have hcar : Carries m := by unfold Carries; rcases hm with rfl | rfl <;> simp
    obtain ⟨chs, q1, q2⟩ := w2 hcar
    have hfr := framedBy_unique k4.1 f4 (.chunked (k6 hcar))
    obtain ⟨_, enc, len, hnew⟩ := request_under hrq
    have htr : trace rq.body = chunkT c' [] none (trace s1) := by
      rw [hnew] at hfr ⊢
      by_cases he : enc = some b!"chunked"
      · subst he; rw [chunked_new]; rfl
      · unfold HttpBody.new at hfr; rw [if_neg he] at hfr; cases len <;> simp [framing] at hfr
    rw [← chunkedData_for q1]
    rw [htr]
    rw [q2] at f6
    have hz : UnsignedText 16 b!"0" 0 := .inl (.one (.dec 0 (by omega) (by omega)))
    exact ⟨fun hdata => chunkT_whole hdata f6 (fun ch h => (q1.1 ch h).1) hz,
      fun e hdata => chunkT_begins hdata f6 (fun ch h => (q1.1 ch h).1) hz⟩

/-! ### C197 -/

omit [ZeroReader ρ] in
/-- Any beginning of the bytes of a call, and any end of the connection after it, asks the server for nothing but this call: there is no
request to be read, or it is the call with a body that has a beginning of the data and then fails, or the call itself. -/
theorem C197_cut (d d1 : Duplex ρ σ) (hd : sent d.wr = []) (u : Url) (host : Bytes) (m : HttpMethod)
    (b : HttpRequestBuilder c) (hb : HttpRequestBuilder.new c (HttpUrl.tryFrom u) m = .ok b) (hhost : u.host = some host)
    (htext : IsText host ∧ ¬ HasCrLf host) (htarget : SendableTarget (requestTarget { u with query := none }))
    (adds : List (Bytes × Bytes)) (ha : ∀ kv ∈ adds, Addable kv)
    (o o' : OutgoingRequest c (Duplex ρ σ)) (hsend : (adds.foldl (fun b kv => b.addHeader kv.1 kv.2) b).send d = .ok o)
    (cs : List WCall) (hlen : ∀ buf ∈ written cs, buf.length < 2 ^ 64) (hp : perform o cs = (true, o'))
    (hcomp : o'.complete = .ok d1) (p : Bytes) (hpre : p <+: wire d1.wr) (stop : Option Err) (hf : Final c' stop) (q : Asked)
    (hq : AsksFor c' stop p q) :
    RemoteCall.CutTo ⟨m, requestTarget { u with query := none }, (written cs).flatten⟩ q := by
  have ht := stoppedConn_trace p stop
  have hbs : bytesOf (trace (stoppedConn p stop)) <+: wire d1.wr := by
    rw [ht, bytesOf_map]
    have : bytesOf (endEvents stop) = [] := by cases stop <;> rfl
    rw [this, List.append_nil]; exact hpre
  have read := cut_read (c' := c') d d1 hd u host m b hb hhost htext htarget adds ha o o' hsend cs hlen hp hcomp (stoppedConn p stop) hbs
  cases hq with
  | cut hc => exact .panics
  | malformed he => exact .faulty
  | noLength hq hm hn =>
    obtain ⟨r, s1', g1, g2, g3, g4, g5⟩ := requests_read hf hq _ ht
    obtain ⟨f2, f3, f4, f5⟩ := read _ _ g1
    exact absurd (g4.1 hn) (f4 (by rw [g2]; exact hm))
  | plain hq hm =>
    obtain ⟨r, s1', g1, g2, g3, g4, g5⟩ := requests_read hf hq _ ht
    obtain ⟨f2, f3, f4, f5⟩ := read _ _ g1
    rw [f2] at g2; rw [f3] at g3
    subst g2; subst g3
    exact .whole ⟨fun h => absurd h.symm hm, fun _ => rfl⟩
  | @upload _ _ _ _ data e hq hm hc =>
    obtain ⟨r, s1', g1, g2, g3, g4, g5⟩ := requests_read hf hq _ ht
    obtain ⟨f2, f3, f4, f5⟩ := read _ _ g1
    rw [f2] at g2; rw [f3] at g3
    subst g2; subst g3
    cases e with
    | some e => exact .upload (x := ⟨m, _, _⟩) hm.symm ((f5 hm.symm _).2 e (g5 _ _ hc))
    | none =>
      have h1 := g5 _ _ hc
      rw [endEvents, List.append_nil] at h1
      rw [(f5 hm.symm _).1 h1]
      exact .whole ⟨fun _ => rfl, fun h => absurd hm.symm h⟩

omit [ZeroReader ρ] in
/-- So if the service refuses uploads that break off, every attempt of which the server has got a beginning at which it does not panic has
either come through whole or is in vain. -/
theorem C197_in_vain {κ : Type} (S : Service κ) (errText : Err → Bytes) (d d1 : Duplex ρ σ) (hd : sent d.wr = []) (u : Url) (host : Bytes)
    (m : HttpMethod) (b : HttpRequestBuilder c) (hb : HttpRequestBuilder.new c (HttpUrl.tryFrom u) m = .ok b) (hhost : u.host = some host)
    (htext : IsText host ∧ ¬ HasCrLf host) (htarget : SendableTarget (requestTarget { u with query := none }))
    (adds : List (Bytes × Bytes)) (ha : ∀ kv ∈ adds, Addable kv)
    (o o' : OutgoingRequest c (Duplex ρ σ)) (hsend : (adds.foldl (fun b kv => b.addHeader kv.1 kv.2) b).send d = .ok o)
    (cs : List WCall) (hlen : ∀ buf ∈ written cs, buf.length < 2 ^ 64) (hp : perform o cs = (true, o'))
    (hcomp : o'.complete = .ok d1) (p : Bytes) (hpre : p <+: wire d1.wr) (stop : Option Err) (hf : Final c' stop)
    (hS : Hands m → RefusesCut S ⟨m, requestTarget { u with query := none }, (written cs).flatten⟩)
    (hn : ¬ CutRequest c' (p.map .byte ++ endEvents stop)) :
    AsksWholly c' ⟨m, requestTarget { u with query := none }, (written cs).flatten⟩ (p, stop) ∨ ∀ k, InVain c' errText S k (p, stop) := by
  obtain ⟨q, hq⟩ := C192_total c' stop p
  have hcut := C197_cut d d1 hd u host m b hb hhost htext htarget adds ha o o' hsend cs hlen hp hcomp p hpre stop hf q hq
  cases hcut with
  | panics =>
    cases hq with
    | cut h => exact absurd h hn
  | faulty => exact .inr fun k => ⟨_, _, by simp, .faulty hq⟩
  | @upload data e hm _ =>
    refine .inr fun k => ?_
    obtain ⟨g1, g2⟩ := hS hm k data e
    have := ServesOne.upload (errText := errText) (S := S) (k := k) hq
    generalize S _ _ data (some e) k = y at g1 g2 this
    obtain ⟨res, out, k'⟩ := y
    dsimp only at g1 g2
    subst g2
    exact ⟨res, out, g1, this⟩
  | whole hw =>
    refine .inl fun q' => ⟨fun hq' => ?_, fun hw' => ?_⟩
    · rw [C192_unique hf hq' hq]; exact hw
    · have : q' = q := by
        by_cases hm : Hands m
        · rw [hw.1 hm, hw'.1 hm]
        · rw [hw.2 hm, hw'.2 hm]
      rw [this]; exact hq

end

/-- Witness for `C197_cut` and `C197_in_vain`: the store refuses uploads that break off, so any beginning of a PUT in two writes, after
which the connection fails, is in vain unless it is the whole call. One at which the server does not panic: nothing at all, and a failure. -/
example (c c' : Cfg) : let _ := asciiCase
    let d : Duplex Wire Sink := ⟨⟨[]⟩, ⟨[], 0, []⟩⟩
    let x : RemoteCall := ⟨.Put, sampleUrl.path, b!"abc"⟩
    let stop := some (Err.io (.other 5))
    ∃ b o o' d1, HttpRequestBuilder.new c (HttpUrl.tryFrom sampleUrl) .Put = .ok b ∧ b.send d = .ok o ∧
      perform o [.write b!"ab", .write b!"c"] = (true, o') ∧ o'.complete = .ok d1 ∧ RefusesCut storeService x ∧
      (∀ p, p <+: wire d1.wr → ¬ CutRequest c' (p.map .byte ++ endEvents stop) →
        AsksWholly c' x (p, stop) ∨ ∀ k, InVain c' (fun _ => []) storeService k (p, stop)) ∧
      (∀ p, p <+: wire d1.wr → ∀ q, AsksFor c' stop p q → x.CutTo q) ∧
      ¬ CutRequest c' (([] : Bytes).map .byte ++ endEvents stop) := by
  intro inst d x stop
  have hfin : Final c' stop := by
    intro e h
    simp only [stop, Option.some.injEq] at h
    subst h
    rcases c' with ⟨_ | _⟩ <;> simp [Retried]
  have hlen : ∀ buf ∈ written [.write b!"ab", .write b!"c"], buf.length < 2 ^ 64 := by decide
  obtain ⟨b, o, o', d1, h1, h2, h3, h4⟩ := C55_sending (sink_reliable c) d (by intro a ha; change a ∈ [] at ha; simp at ha)
    sampleUrl b!"h" .Put sampleUrl_askable.ascii
    sampleUrl_askable.scheme rfl [] [.write b!"ab", .write b!"c"] (.inl (by simp [Carries]))
  have htext : IsText b!"h" ∧ ¬ HasCrLf b!"h" := ⟨isText_ascii (by decide), by unfold HasCrLf; decide⟩
  have htarget : SendableTarget (requestTarget { sampleUrl with query := none }) :=
    ⟨by decide, isText_ascii (by decide), by decide, by decide, by unfold HasCrLf; decide⟩
  have hx : (⟨.Put, requestTarget { sampleUrl with query := none }, b!"abc"⟩ : RemoteCall) = x := by
    rw [show requestTarget { sampleUrl with query := none } = sampleUrl.path by decide]
  have hS : RefusesCut storeService x := fun k data e => ⟨by simp [storeService, x], by simp [storeService, x]⟩
  refine ⟨b, o, o', d1, h1, h2, h3, h4, hS, fun p hp hn => ?_, fun p hp q hq => ?_, fun hc => ?_⟩
  · rw [← hx]
    exact C197_in_vain storeService (fun _ => []) d d1 rfl sampleUrl b!"h" .Put b h1 rfl htext htarget [] (by simp) o o' h2 _ hlen h3 h4 p hp
      stop hfin (fun _ => by
        have := hS
        rw [← hx] at this
        exact this) hn
  · rw [← hx]
    exact C197_cut d d1 rfl sampleUrl b!"h" .Put b h1 rfl htext htarget [] (by simp) o o' h2 _ hlen h3 h4 p hp stop hfin q hq
  · rw [← stoppedConn_trace, ← C11_request_panics_iff] at hc
    have : (HttpRequest.deserialize c' (stoppedConn [] stop)).1 = .err (.io (.other 5)) :=
      err_of (by rcases c' with ⟨_ | _⟩ <;> decide +kernel)
    rw [this] at hc; simp at hc

end HttpIo
