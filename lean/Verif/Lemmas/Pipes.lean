import Verif.Spec.Pipes
import Verif.Lemmas.Peer
import Verif.Props.EndToEnd

/-! What two connected programs wait for. -/

namespace HttpIo
open Spec

theorem spend_sum {n k : Nat} (ks : List Nat) : (spend n (k :: ks)).sum + min n k = (k :: ks).sum := by
  simp only [spend]
  split <;> simp only [List.sum_cons] <;> omega

theorem spend_pos {n k : Nat} {ks : List Nat} (h : ∀ x ∈ k :: ks, 0 < x) : ∀ x ∈ spend n (k :: ks), 0 < x := by
  intro x hx
  simp only [spend] at hx
  split at hx
  · exact h x (List.mem_cons_of_mem _ hx)
  · rw [List.mem_cons] at hx
    rcases hx with rfl | hx
    · omega
    · exact h x (List.mem_cons_of_mem _ hx)

theorem Sock.wait_waits (s : Sock) (a : Await) : (s.wait a).waits = if s.waits = none then some a else s.waits := by
  unfold Sock.wait
  split <;> rfl

theorem Sock.wait_rest (s : Sock) (a : Await) : (s.wait a).input = s.input ∧ (s.wait a).closes = s.closes ∧
    (s.wait a).fed = s.fed ∧ (s.wait a).ended = s.ended ∧ (s.wait a).out = s.out ∧ (s.wait a).room = s.room := by
  unfold Sock.wait
  split <;> exact ⟨rfl, rfl, rfl, rfl, rfl, rfl⟩

/-- Everything about writing: `R` bytes have been taken from the program so far. -/
structure Sock.Writing (R : Nat) (s : Sock) : Prop where
  free : s.waits = none → s.out.length + s.room.sum = R ∧ ∀ x ∈ s.room, 0 < x
  held : ∀ buf, s.waits = some (.write buf) → buf ≠ [] ∧ R + buf.length ≤ s.out.length

/-- Writing does nothing to the receiving half. -/
theorem Sock.write_rest (s : Sock) (buf : Bytes) : (write s buf).2.input = s.input ∧ (write s buf).2.closes = s.closes ∧
    (write s buf).2.fed = s.fed ∧ (write s buf).2.ended = s.ended := by
  rw [Sock.write_def]
  unfold Sock.writeImpl
  split
  · exact ⟨rfl, rfl, rfl, rfl⟩
  · have := s.wait_rest (.write buf)
    split
    · exact ⟨rfl, rfl, rfl, rfl⟩
    · exact ⟨this.1, this.2.1, this.2.2.1, this.2.2.2.1⟩

/-- A program that waits for something to read does so whatever it writes. -/
theorem Sock.write_waits (s : Sock) (buf : Bytes) (a : Await) (h : s.waits = some a) : (write s buf).2.waits = some a := by
  rw [Sock.write_def]
  unfold Sock.writeImpl
  split
  · exact h
  · rw [h]
    dsimp only
    rw [Sock.wait_waits, if_neg (by rw [h]; simp), h]

theorem Sock.write_waits_read (s : Sock) (buf : Bytes) (n : Nat) (h : (write s buf).2.waits = some (.read n)) :
    s.waits = some (.read n) := by
  rw [Sock.write_def] at h
  unfold Sock.writeImpl at h
  split at h
  · exact h
  · split at h
    · rename_i h1 _; dsimp only at h; exact h
    · dsimp only at h
      rw [Sock.wait_waits] at h
      split at h
      · simp at h
      · exact h

theorem Sock.Writing.write {R : Nat} {s : Sock} (h : s.Writing R) (buf : Bytes) : (HttpIo.write s buf).2.Writing R := by
  rw [Sock.write_def]
  unfold Sock.writeImpl
  by_cases hb : buf = []
  · rw [if_pos hb]; exact h
  · rw [if_neg hb]
    have hr := s.wait_rest (.write buf)
    have hw := s.wait_waits (.write buf)
    rcases hwt : s.waits with _ | a
    · obtain ⟨h1, h2⟩ := h.free hwt
      have last : s.room.sum = 0 → ({ s.wait (.write buf) with out := s.out ++ buf } : Sock).Writing R := by
        intro h0
        refine ⟨fun hn => ?_, fun b hn => ?_⟩
        · dsimp only at hn; rw [hw, if_pos hwt] at hn; simp at hn
        · dsimp only at hn ⊢
          rw [hw, if_pos hwt] at hn
          simp only [Option.some.injEq, Await.write.injEq] at hn
          subst hn
          refine ⟨hb, ?_⟩
          rw [List.length_append]; omega
      rcases hrm : s.room with _ | ⟨_ | k, ks⟩
      · exact last (by rw [hrm]; rfl)
      · exact absurd (h2 0 (by rw [hrm]; simp)) (by omega)
      · dsimp only
        refine ⟨fun _ => ?_, fun b hn => ?_⟩
        · dsimp only
          have h3 := spend_sum (n := buf.length) (k := k + 1) ks
          rw [hrm] at h1 h2
          refine ⟨?_, spend_pos h2⟩
          rw [List.length_append, List.length_take]
          omega
        · dsimp only at hn; simp at hn
    · dsimp only
      refine ⟨fun hn => ?_, fun b hn => ?_⟩
      · dsimp only at hn; rw [hw, if_neg (by rw [hwt]; simp), hwt] at hn; simp at hn
      · dsimp only at hn ⊢
        rw [hw, if_neg (by rw [hwt]; simp)] at hn
        obtain ⟨h1, h2⟩ := h.held b hn
        refine ⟨h1, ?_⟩
        rw [List.length_append]; omega

/-- A socket never refuses to be written to. -/
theorem sock_reliable (c : Cfg) : Reliable c fun _ : Sock => True := by
  have hw : ∀ (s : Sock) (buf : Bytes), buf ≠ [] → ∃ k, (write s buf).1 = .ok (k + 1) := by
    intro s buf hb
    have hl := List.length_pos_iff.2 hb
    rw [Sock.write_def]
    unfold Sock.writeImpl
    rw [if_neg hb]
    split
    · rename_i k _ _ _
      exact ⟨min (k + 1) buf.length - 1, by dsimp only; congr 1; omega⟩
    · exact ⟨buf.length - 1, by dsimp only; congr 1; omega⟩
  refine ⟨fun _ _ _ => trivial, fun _ _ => trivial, fun _ _ _ => trivial, fun s buf _ hb => .inl (hw s buf hb), fun _ _ => rfl,
    fun s buf _ => ?_⟩
  exact Reliable.loop (Q := fun _ : Sock => True) (fun _ _ _ => trivial) (fun s buf _ hb => .inl (hw s buf hb)) trivial

/-- What writing keeps. -/
theorem sock_kept (s0 : Sock) (R : Nat) : Kept fun s : Sock =>
    s.input = s0.input ∧ s.closes = s0.closes ∧ s.fed = s0.fed ∧ s.ended = s0.ended ∧ s.Writing R ∧
      (∀ n, s.waits = some (.read n) ↔ s0.waits = some (.read n)) := by
  have hw : ∀ (s : Sock) (buf : Bytes), (s.input = s0.input ∧ s.closes = s0.closes ∧ s.fed = s0.fed ∧ s.ended = s0.ended ∧
      s.Writing R ∧ (∀ n, s.waits = some (.read n) ↔ s0.waits = some (.read n))) →
      (write s buf).2.input = s0.input ∧ (write s buf).2.closes = s0.closes ∧ (write s buf).2.fed = s0.fed ∧
      (write s buf).2.ended = s0.ended ∧ (write s buf).2.Writing R ∧
      (∀ n, (write s buf).2.waits = some (.read n) ↔ s0.waits = some (.read n)) := by
    rintro s buf ⟨h1, h2, h3, h4, h5, h6⟩
    obtain ⟨g1, g2, g3, g4⟩ := s.write_rest buf
    refine ⟨by rw [g1, h1], by rw [g2, h2], by rw [g3, h3], by rw [g4, h4], h5.write buf, fun n => ?_⟩
    rw [← h6]
    exact ⟨s.write_waits_read buf n, s.write_waits buf _⟩
  exact ⟨hw, fun _ h => h, fun c s buf h => defaultWriteAll_kept hw h⟩

/-- Everything about reading: of `I` bytes from the peer, `F` have been given to the program so far. -/
structure Sock.Reading (I F : Nat) (s : Sock) : Prop where
  free : s.waits = none → (∀ x ∈ s.fed, 0 < x) ∧ I + s.fed.sum ≤ F + s.input.length ∧
    (s.input = [] ∨ F + s.input.length ≤ I + s.fed.sum)
  held : ∀ n, s.waits = some (.read n) → 0 < n ∧ (F < I ∨ s.ended = false ∧ s.closes = true)

theorem Sock.read_rest (s : Sock) (n : Nat) : (read s n).2.out = s.out ∧ (read s n).2.room = s.room ∧
    (read s n).2.ended = s.ended := by
  rw [Sock.read_def]
  unfold Sock.readImpl
  have := s.wait_rest (.read n)
  split
  · exact ⟨rfl, rfl, rfl⟩
  · split
    · dsimp only
      split <;> split <;> first | exact ⟨rfl, rfl, rfl⟩ | exact ⟨this.2.2.2.2.1, this.2.2.2.2.2, this.2.2.2.1⟩
    · split
      · exact ⟨rfl, rfl, rfl⟩
      · exact ⟨this.2.2.2.2.1, this.2.2.2.2.2, this.2.2.2.1⟩

theorem Sock.read_waits (s : Sock) (n : Nat) (a : Await) (h : s.waits = some a) : (read s n).2.waits = some a := by
  have hw : (s.wait (.read n)).waits = some a := by rw [Sock.wait_waits, if_neg (by rw [h]; simp), h]
  rw [Sock.read_def]
  unfold Sock.readImpl
  split
  · exact h
  · split
    · dsimp only
      split <;> split <;> first | exact h | exact hw
    · rw [h]
      exact hw

theorem Sock.read_waits_write (s : Sock) (n : Nat) (buf : Bytes) (h : (read s n).2.waits = some (.write buf)) :
    s.waits = some (.write buf) := by
  rcases hs : s.waits with _ | a
  · exfalso
    have hw : (s.wait (.read n)).waits = some (.read n) := by rw [Sock.wait_waits, if_pos hs]
    rw [Sock.read_def] at h
    unfold Sock.readImpl at h
    split at h
    · rw [hs] at h; simp at h
    · split at h
      · dsimp only at h
        split at h <;> split at h <;> first | (rw [hs] at h; simp at h; done) | (rw [hw] at h; simp at h; done) | skip
        all_goals first | (dsimp only at h; rw [hs] at h; simp at h; done) | (dsimp only at h; rw [hw] at h; simp at h; done)
      · split at h
        · dsimp only at h; rw [hs] at h; simp at h
        · dsimp only at h; rw [hw] at h; simp at h
  · have := s.read_waits n a hs
    rw [h] at this
    exact this.symm

theorem Sock.Reading.read {I F : Nat} {s : Sock} (h : s.Reading I F) (n : Nat) : (HttpIo.read s n).2.Reading I F := by
  have hr := s.wait_rest (.read n)
  rw [Sock.read_def]
  unfold Sock.readImpl
  by_cases hn : n = 0
  · rw [if_pos hn]; exact h
  · rw [if_neg hn]
    by_cases hi : s.input = []
    · rw [if_pos hi]
      dsimp only
      have key : ∀ s' : Sock, s' = (if s.ended then s else s.wait (.read n)) →
          ({ s' with closes := true } : Sock).Reading I F := by
        rintro s' rfl
        cases he : s.ended with
        | true =>
          rw [if_pos rfl]
          exact ⟨fun hw => h.free hw, fun m hw => ⟨(h.held m hw).1, ((h.held m hw).2).imp id fun hx => ⟨hx.1, rfl⟩⟩⟩
        | false =>
          rw [if_neg (by simp)]
          refine ⟨fun hw => ?_, fun m hw => ?_⟩
          · dsimp only at hw
            rw [Sock.wait_waits] at hw
            split at hw
            · simp at hw
            · rename_i hx; exact absurd hw hx
          · dsimp only at hw ⊢
            rw [Sock.wait_waits] at hw
            split at hw
            · simp only [Option.some.injEq, Await.read.injEq] at hw
              subst hw
              exact ⟨by omega, .inr ⟨by rw [hr.2.2.2.1, he], rfl⟩⟩
            · obtain ⟨h1, h2⟩ := h.held m hw
              refine ⟨h1, h2.imp id fun hx => ⟨by rw [hr.2.2.2.1, he], rfl⟩⟩
      by_cases hc : s.closes = true
      · rw [if_pos hc]
        have := key _ rfl
        have e : ({ (if s.ended then s else s.wait (.read n)) with closes := true } : Sock) =
            (if s.ended then s else s.wait (.read n)) := by
          have : (if s.ended then s else s.wait (.read n)).closes = true := by
            split
            · exact hc
            · rw [hr.2.1, hc]
          generalize (if s.ended then s else s.wait (.read n)) = z at this
          cases z
          simp_all
        rwa [e] at this
      · rw [if_neg hc]
        exact key _ rfl
    · rw [if_neg hi]
      have hl := List.length_pos_iff.2 hi
      have held : s.waits ≠ none → ({ s.wait (.read n) with input := s.input.drop n } : Sock).Reading I F := by
        intro hx
        refine ⟨fun hw => ?_, fun m hw => ?_⟩
        · dsimp only at hw; rw [Sock.wait_waits, if_neg hx] at hw; exact absurd hw hx
        · dsimp only at hw ⊢
          rw [Sock.wait_waits, if_neg hx] at hw
          obtain ⟨h1, h2⟩ := h.held m hw
          exact ⟨h1, h2.imp id fun hx => ⟨by rw [hr.2.2.2.1]; exact hx.1, by rw [hr.2.1]; exact hx.2⟩⟩
      rcases hwt : s.waits with _ | a
      · obtain ⟨h1, h2, h3⟩ := h.free hwt
        have h3 : F + s.input.length ≤ I + s.fed.sum := by
          rcases h3 with h3 | h3
          · exact absurd h3 hi
          · exact h3
        have last : s.fed.sum = 0 → ({ s.wait (.read n) with input := s.input.drop n } : Sock).Reading I F := by
          intro h0
          refine ⟨fun hw => ?_, fun m hw => ?_⟩
          · dsimp only at hw; rw [Sock.wait_waits, if_pos hwt] at hw; simp at hw
          · dsimp only at hw ⊢
            rw [Sock.wait_waits, if_pos hwt] at hw
            simp only [Option.some.injEq, Await.read.injEq] at hw
            exact ⟨by omega, .inl (by omega)⟩
        rcases hf : s.fed with _ | ⟨_ | k, ks⟩
        · exact last (by rw [hf]; rfl)
        · exact absurd (h1 0 (by rw [hf]; simp)) (by omega)
        · dsimp only
          have h4 := spend_sum (n := n) (k := k + 1) ks
          rw [hf] at h1 h2 h3
          refine ⟨fun _ => ⟨spend_pos h1, ?_, ?_⟩, fun m hw => by dsimp only at hw; simp at hw⟩
          · dsimp only
            rw [List.length_drop]; omega
          · dsimp only
            by_cases hx : s.input.length ≤ min n (k + 1)
            · exact .inl (List.drop_eq_nil_of_le hx)
            · right; rw [List.length_drop]; omega
      · exact held (by rw [hwt]; simp)

/-! ### The client -/

/-- The bytes of a request to `host`. -/
def asked (q : Ask) (host : Bytes) : Bytes :=
  if q.put then requestHead .Put (requestTarget { q.url with query := none }) (standardHeaders .Put host) ++
    ((written q.writes).map emitted).flatten ++ b!"0\r\n\r\n"
  else requestHead .Get (requestTarget { q.url with query := none }) (standardHeaders .Get host)

section
variable [CaseMap] {c : Cfg} {σ : Type} [LawfulWriter σ]

/-- A request that is all sent. -/
theorem ask_sent {P K : σ → Prop} (hr : Reliable c P) (hk : Kept K) (s : σ) (hs : P s) (hK : K s) (q : Ask) (hq : q.Proper)
    (host : Bytes) (hhost : q.url.host = some host) :
    ∃ b o o' s1, HttpRequestBuilder.new c (HttpUrl.tryFrom q.url) (if q.put then .Put else .Get) = .ok b ∧
      b.send s = .ok o ∧ perform o q.writes = (true, o') ∧ o'.complete = .ok s1 ∧ sent s1 = sent s ++ asked q host ∧ K s1 := by
  obtain ⟨sch, h1, _⟩ := HttpUrl.tryFrom_ok hq.ascii hq.scheme hhost
  obtain ⟨b, h2, h3, h4, h5, h6⟩ := HttpRequestBuilder.new_ok c ⟨q.url, sch, host⟩ (if q.put then .Put else .Get)
  have huri : b.request.uri = requestTarget { q.url with query := none } := by
    rw [h4]; unfold requestTarget; dsimp only; rw [List.append_nil]
  obtain ⟨o, g1, g2⟩ := hr.serialize_ok b.request (s := s) hs
  have k1 := hk.serialize (r := b.request) (s := s) hK (c := c)
  rw [g1] at k1
  obtain ⟨e1, e2⟩ := C18_serialized b.request s h5 o g1
  have hsend : b.send s = .ok o := g1
  rw [h3, huri, h6] at e1
  cases hput : q.put with
  | true =>
    rw [hput] at h3 e1 h2
    obtain ⟨ob, hob⟩ := e2.2 (by rw [h3]; simp)
    subst hob
    obtain ⟨b', g3, g4⟩ := hr.perform_ok (b := ob) (cs := q.writes) g2
    have k2 := hk.outgoing.perform (cs := q.writes) k1
    have hp : perform (OutgoingRequest.WithBody ob) q.writes = (true, .WithBody b') := by rw [perform_withBody, g3]
    rw [hp] at k2
    obtain ⟨s1, g5, g6⟩ := hr.complete_ok (o := .WithBody b') g4
    have k3 := hk.complete k2
    rw [g5] at k3
    obtain ⟨_, p, _, m1, m2⟩ := OutgoingBody.perform_sent g3
    obtain ⟨m3, _⟩ := OutgoingBody.complete_ok g5
    refine ⟨b, _, _, s1, by rw [h1]; exact h2, hsend, hp, g5, ?_, k3⟩
    rw [m3, m1, m2 rfl, show sent ob.socket = outgoingSent (.WithBody ob) from rfl, e1]
    unfold asked
    rw [if_pos hput]
    simp
  | false =>
    rw [hput] at h3 e1 h2
    cases o with
    | WithBody ob =>
      have := e2.1 ⟨ob, rfl⟩
      rw [h3] at this
      simp at this
    | NoBody t =>
      obtain ⟨f1, f2⟩ := perform_noBody (c := c) t q.writes
      have hp : perform (OutgoingRequest.NoBody (c := c) t) q.writes = (true, .NoBody t) :=
        Prod.ext (f2.2 (hq.bodiless hput)) f1
      obtain ⟨s1, g5, g6⟩ := hr.complete_ok (o := .NoBody t) g2
      have k3 := hk.complete k1
      rw [g5] at k3
      obtain ⟨m1, m2, _⟩ := sent_request hq.small hp g5
      obtain ⟨m4, _⟩ := m2 t rfl
      refine ⟨b, _, _, s1, by rw [h1]; exact h2, hsend, hp, g5, ?_, k3⟩
      rw [m4, show sent t = outgoingSent (.NoBody (c := c) t) from rfl, e1]
      simp [asked, hput]

end

section
variable [CaseMap] {c : Cfg}

/-- Reading a response keeps what reading keeps. -/
theorem roundTrip_readKept {σ : Type} [LawfulReader σ] [ZeroReader σ] [Writer σ] {P : σ → Prop} (hk : ReadKept P)
    {o o' : OutgoingRequest c σ} {writes : List WCall} {sizes : List Nat} {s1 : σ}
    (h1 : perform o writes = (true, o')) (h2 : o'.complete = .ok s1) (hP : P s1) : P (roundTrip writes sizes o).2 := by
  have hfin : o'.finish = HttpResponse.deserialize c s1 := by unfold OutgoingRequest.finish; rw [h2]
  have m1 := hk.response (c := c) (s := s1) hP
  unfold roundTrip
  rw [h1]; dsimp only
  rw [hfin]
  rcases hd : HttpResponse.deserialize c s1 with ⟨r | e | _, s2⟩ <;> rw [hd] at m1
  · dsimp only at m1 ⊢
    have m2 := (hk.bufReader (c := c)).body (c := c)
    have m3 : (r.body).All fun x : BufReader c σ => P x.inner := by
      obtain ⟨_, enc, len, hnew⟩ := response_under hd
      rw [hnew]; exact HttpBody.All.new m1
    have m4 := m2.calls (sizes := sizes) m3
    cases hu : (calls r.body sizes).2.under with
    | none => exact m1
    | some s3 => exact m4.under hu
  · exact m1
  · exact m1

/-- What the client writes and waits for. -/
theorem client_shape (q : Ask) (hq : q.Proper) (host : Bytes) (hhost : q.url.host = some host) (resp : Bytes)
    (fed room : List Nat) (ended : Bool) (hfed : ∀ x ∈ fed, 0 < x) (hroom : ∀ x ∈ room, 0 < x) :
    let s := (q.run c (Sock.start resp true fed ended room)).2
    s.out = asked q host ∧
    (∀ buf, s.waits = some (.write buf) → buf ≠ [] ∧ room.sum + buf.length ≤ (asked q host).length) ∧
    (∀ n, s.waits = some (.read n) → 0 < n ∧ (asked q host).length ≤ room.sum ∧ (fed.sum < resp.length ∨ ended = false)) ∧
    (s.waits = none → (asked q host).length ≤ room.sum) := by
  intro s
  have hk := sock_kept (.start resp true fed ended room) room.sum
  obtain ⟨b, o, o', s1, h1, h2, h3, h4, h5, h6, h7, h8, h9, h10, h11⟩ := ask_sent (c := c) (sock_reliable c) hk
    (.start resp true fed ended room) trivial ⟨rfl, rfl, rfl, rfl, ⟨fun _ => ⟨by simp [Sock.start], hroom⟩, by simp [Sock.start]⟩,
      fun _ => Iff.rfl⟩ q hq host hhost
  have hout : s1.out = asked q host := by
    rw [Sock.sent_eq, Sock.sent_eq] at h5
    rw [h5]; rfl
  have hrk : ReadKept fun s : Sock => s.out = asked q host ∧ s.ended = ended ∧ s.Reading resp.length fed.sum ∧
      (∀ buf, s.waits = some (.write buf) → s1.waits = some (.write buf)) ∧ (∀ a, s1.waits = some a → s.waits = some a) := by
    refine ⟨fun s n hs => ?_⟩
    obtain ⟨g1, g2, g3⟩ := s.read_rest n
    refine ⟨by rw [g1]; exact hs.1, by rw [g3]; exact hs.2.1, hs.2.2.1.read n, fun buf hw => ?_, fun a hw => ?_⟩
    · exact hs.2.2.2.1 buf (s.read_waits_write n buf hw)
    · exact s.read_waits n a (hs.2.2.2.2 a hw)
  have hstart : s1.Reading resp.length fed.sum := by
    refine ⟨fun _ => ?_, fun n hw => ?_⟩
    · rw [h8, h6]
      exact ⟨hfed, by simp [Sock.start]; omega, .inr (by simp [Sock.start]; omega)⟩
    · have := (h11 n).1 hw
      simp [Sock.start] at this
  have hend := roundTrip_readKept (c := c) (sizes := q.sizes) hrk h3 h4 ⟨hout, h9, hstart, fun _ h => h, fun _ h => h⟩
  have hrun : s = (roundTrip q.writes q.sizes o).2 := by
    show (q.run c _).2 = _
    unfold Ask.run
    rw [h1]; dsimp only
    rw [h2]
  rw [← hrun] at hend
  obtain ⟨e1, e2, e3, e4, e5⟩ := hend
  have hfree : s1.waits = none → (asked q host).length ≤ room.sum := by
    intro hw
    have := (h10.free hw).1
    rw [hout] at this
    omega
  refine ⟨e1, fun buf hw => ?_, fun n hw => ?_, fun hw => ?_⟩
  · have := h10.held buf (e4 buf hw)
    rwa [hout] at this
  · obtain ⟨g1, g2⟩ := e3.held n hw
    refine ⟨g1, hfree ?_, g2.imp id fun hx => ?_⟩
    · cases hs : s1.waits with
      | none => rfl
      | some a =>
        have := e5 a hs
        rw [hw] at this
        simp only [Option.some.injEq] at this
        subst this
        have := (h11 n).1 hs
        simp [Sock.start] at this
    · rw [← e2]; exact hx.1
  · refine hfree ?_
    cases hs : s1.waits with
    | none => rfl
    | some a =>
      have := e5 a hs
      rw [hw] at this
      simp at this

/-- What the client gets. -/
theorem client_gets (q : Ask) (hq : q.Readable) (host : Bytes) (hhost : q.url.host = some host)
    (status : HttpStatus) (headers : HttpHeaders) (bs : Bytes) (hh : SendableHeaders headers.entries)
    (hc : (b!"transfer-encoding", b!"chunked") ∉ headers.entries)
    (hl : ∀ v, (b!"content-length", v) ∈ headers.entries → LengthText v bs.length)
    (fed room : List Nat) (ended : Bool) :
    ∃ rs, (q.run c (Sock.start (responseHead status.display headers.entries ++ bs) true fed ended room)).1 =
      .got (HttpStatus.fromCode status.toCode) headers rs ∧ (bs.length < q.sizes.length → ReadAll rs bs) := by
  generalize hst : Sock.start (responseHead status.display headers.entries ++ bs) true fed ended room = s0
  have hk : Kept fun s : Sock => s.input = s0.input ∧ s.closes = s0.closes := by
    have hw : ∀ (s : Sock) (buf : Bytes), s.input = s0.input ∧ s.closes = s0.closes →
        (write s buf).2.input = s0.input ∧ (write s buf).2.closes = s0.closes := by
      rintro s buf ⟨h1, h2⟩
      obtain ⟨g1, g2, _⟩ := s.write_rest buf
      exact ⟨by rw [g1, h1], by rw [g2, h2]⟩
    exact ⟨hw, fun _ h => h, fun c s buf h => defaultWriteAll_kept hw h⟩
  obtain ⟨b, o, o', s1, h1, h2, h3, h4, _, h5, h6⟩ := ask_sent (c := c) (sock_reliable c) hk s0 trivial ⟨rfl, rfl⟩ q
    hq.toProper host hhost
  have htr : trace s1 = (responseHead status.display headers.entries ++ bs).map .byte := by
    rw [Sock.trace_eq, h5, h6, ← hst]
    simp [Sock.start]
  obtain ⟨r, s2, e1, e2, e3, e4, e5⟩ := response_closed (c := c) s1 status headers bs hh (fun v hv => ⟨_, hl v hv⟩) hc htr
  have hy : Yields r.body bs := by
    by_cases hx : ∃ v, (b!"content-length", v) ∈ headers.entries
    · obtain ⟨v, hv⟩ := hx
      have := e5 v _ hv (hl v hv)
      rwa [List.take_length] at this
    · exact e4 fun v hv => hx ⟨v, hv⟩
  have hfin : o'.finish = (.ok r, s2) := by unfold OutgoingRequest.finish; rw [h4]; exact e1
  refine ⟨(calls r.body q.sizes).1, ?_, fun hlen => ?_⟩
  · unfold Ask.run
    rw [h1]; dsimp only
    rw [h2]; dsimp only
    unfold roundTrip
    rw [h3]; dsimp only
    rw [hfin, ← e2, ← e3]
  · rcases hy q.sizes hq.sizes with ⟨p, _, _, h⟩ | ⟨rs, k, h7, h8⟩
    · omega
    · exact ⟨rs, k + 1, h7, h8⟩

end

/-! ### The server -/

section
variable [CaseMap] {c : Cfg}

/-- The headers of a request are sendable. -/
theorem standard_ok (m : HttpMethod) (host : Bytes) (hhost : IsText host ∧ ¬ HasCrLf host) :
    ∃ h : HttpHeaders, h.entries = standardHeaders m host ∧ SendableHeaders h.entries ∧ LengthOk h.entries ∧
      (Carries m → (b!"transfer-encoding", b!"chunked") ∈ h.entries) := by
  obtain ⟨b, h1, _, _, _, h5⟩ := HttpRequestBuilder.new_ok ⟨false⟩ ⟨⟨[], none, none, [], none, none, [], none⟩, .Http, host⟩ m
  obtain ⟨_, _, _, k4, k5, k6⟩ := built_headers h1 hhost [] (by simp)
  exact ⟨b.request.headers, h5, k4, k5, k6⟩

variable {η ρ ε : Type} [LawfulReader ρ] [ZeroReader ρ]

/-- What is left below a buffer. -/
theorem bufSock_left (x : BufReader c Sock) (bs : Bytes) (hx : trace x = bs.map .byte ++ [.fault Sock.hang]) :
    x.inner.closes = false ∧ x.inner.input.length ≤ bs.length := by
  obtain ⟨l, h1, h2, _⟩ := bufReader_left x bs [.fault Sock.hang] (by simp) hx
  have hl := h1.length_le
  rw [Sock.trace_eq] at h2
  cases hcl : x.inner.closes with
  | true =>
    rw [hcl, if_pos rfl, List.append_nil] at h2
    have : Ev.fault Sock.hang ∈ x.inner.input.map Ev.byte := by rw [h2]; simp
    simp at this
  | false =>
    rw [hcl, if_neg (by simp)] at h2
    have := congrArg List.length (List.append_cancel_right h2)
    simp only [List.length_map] at this
    exact ⟨rfl, by omega⟩

/-- Everything the server reads: what is answered, and what is left of the request. -/
theorem server_reads (q : Ask) (hq : q.Readable) (host : Bytes) (hhost : q.url.host = some host)
    (h : Handler c η Sock ρ ε) (self : η) (reply : Reply ε (ServerResponse c ρ)) (hw : Replies h q self reply)
    (errText : Err → Bytes) (s : Sock) (hi : s.input = asked q host) (hc : s.closes = false) :
    (∀ r, AnswerIs h reply r →
      (h.serveOneInner errText s self).1 = .ok r ∨ (h.serveOneInner errText s self).1 = .err r) ∧
    (h.serveOneInner errText s self).2.1.closes = false ∧ (h.serveOneInner errText s self).2.1.input.length ≤ 2 := by
  have htr : trace s = (asked q host).map .byte ++ [.fault Sock.hang] := by rw [Sock.trace_eq, hi, hc]; rfl
  cases hput : q.put with
  | false =>
    obtain ⟨hd, k1, k2, k3, _⟩ := standard_ok .Get host (hq.host_text host hhost)
    have hdel : Delivers c (trace s) (requestHead .Get (requestTarget { q.url with query := none }) hd.entries)
        [.fault Sock.hang] := by
      rw [htr, k1]
      simp only [asked, hput]
      exact delivers_map c _ _
    obtain ⟨rq, s1, f1, f2, f3, _, _, f4, f5, f6⟩ := C18_roundtrip c (BufReader.new c s) .Get _ hd _ hq.target k2 k3
      (by rwa [BufReader.trace_new])
    have hacc : Acceptable rq := by intro hm; rw [f2] at hm; simp at hm
    rw [serveOneInner_handled h errText self f1 hacc, f2, f3]
    dsimp only [handled]
    have hrel : rq.body.released s1 = s1.inner := by unfold HttpBody.released; rw [f5]; rfl
    obtain ⟨l1, l2⟩ := bufSock_left s1 [] f6
    simp only [List.length_nil] at l2
    refine ⟨fun r hr => ?_, by rw [hrel]; exact l1, by rw [hrel]; omega⟩
    unfold Replies at hw
    rw [hput, if_neg (by simp)] at hw
    rw [← hw] at hr
    rcases hr with hr | ⟨e, hr, rfl⟩ <;> rw [hr]
    · exact .inl rfl
    · exact .inr rfl
  | true =>
    obtain ⟨hd, k1, k2, k3, k4⟩ := standard_ok .Put host (hq.host_text host hhost)
    obtain ⟨chs, q1, q2⟩ := chunksFor (written q.writes) hq.small
    have hask : asked q host = requestHead .Put (requestTarget { q.url with query := none }) hd.entries ++
        (chunkedBytes chs b!"0" ++ [13, 10]) := by
      rw [k1]
      simp only [asked, hput, if_pos, q2, chunkedBytes]
      simp
    have hdel : Delivers c (trace s) (requestHead .Put (requestTarget { q.url with query := none }) hd.entries)
        ((chunkedBytes chs b!"0").map .byte ++ ([13, 10].map .byte ++ [.fault Sock.hang])) := by
      rw [htr, hask, List.map_append, List.map_append, List.append_assoc, List.append_assoc]
      exact delivers_map c _ _
    obtain ⟨rq, s1, f1, f2, f3, _, _, f4, f5, f6⟩ := C18_roundtrip c (BufReader.new c s) .Put _ hd _ hq.target k2 k3
      (by rwa [BufReader.trace_new])
    have hfr := framedBy_unique k2.1 f4 (.chunked (k4 (by unfold Carries; simp)))
    have hacc : Acceptable rq := by intro _ hf; rw [hf] at hfr; simp at hfr
    obtain ⟨_, enc, len, hnew⟩ := request_under f1
    have hbody : rq.body = HttpBody.new c (some b!"chunked") len s1 := by
      rw [hnew] at hfr ⊢
      unfold HttpBody.new at hfr ⊢
      by_cases henc : enc = some b!"chunked"
      · rw [henc]
      · rw [if_neg henc] at hfr
        cases len <;> simp [framing] at hfr
    obtain ⟨d1, d2⟩ := decode_sized c len s1 chs b!"0" ([13, 10].map .byte ++ [.fault Sock.hang])
      (fun ch h => (q1.1 ch h).1) (.inl (.one (.dec 0 (by omega) (by omega)))) (by rw [f6]; exact deliversChunked_map c chs b!"0" _)
    rw [← hbody, chunkedData_for q1] at d1
    rw [← hbody] at d2
    unfold Replies at hw
    rw [hput, if_pos rfl] at hw
    obtain ⟨w1, sizes, w2, w3, w4⟩ := hw rq.body d1
    obtain ⟨s3, u1, u2⟩ := d2 sizes w2 w3
    rw [serveOneInner_handled h errText self f1 hacc, f2, f3]
    dsimp only [handled]
    have hrel : (h.put (requestTarget { q.url with query := none }) rq.body self).2.1.released s1 = s3.inner := by
      rw [w4]; unfold HttpBody.released; rw [u1]; rfl
    obtain ⟨l1, l2⟩ := bufSock_left s3 [13, 10] u2
    refine ⟨fun r hr => ?_, by rw [hrel]; exact l1, by rw [hrel]; simpa using l2⟩
    rw [w1]
    rcases hr with hr | ⟨e, hr, rfl⟩ <;> rw [hr]
    · exact .inl rfl
    · exact .inr rfl

/-- What the server writes and waits for. It leaves at most `L` bytes unread. -/
theorem server_shape_of (q : Ask) (host : Bytes) (h : Handler c η Sock ρ ε) (self : η)
    (ho : OnlyReads h) (errText : Err → Bytes) (r : ServerResponse c ρ) (bs : Bytes) (ha : Answers r bs) (L : Nat)
    (hreads : ∀ s : Sock, s.input = asked q host → s.closes = false →
      ((h.serveOneInner errText s self).1 = .ok r ∨ (h.serveOneInner errText s self).1 = .err r) ∧
      (h.serveOneInner errText s self).2.1.closes = false ∧ (h.serveOneInner errText s self).2.1.input.length ≤ L)
    (fed room : List Nat) (hfed : ∀ x ∈ fed, 0 < x) (hroom : ∀ x ∈ room, 0 < x) :
    let s := serving h errText self (Sock.start (asked q host) false fed false room)
    let resp := responseHead r.status.display r.headers.entries ++ bs
    s.out = resp ∧
    (∀ n, s.waits = some (.read n) → 0 < n ∧ fed.sum < (asked q host).length ∧
      (h.serveOneInner errText (Sock.start (asked q host) false fed false room) self).2.1.waits = some (.read n)) ∧
    (∀ buf, s.waits = some (.write buf) → buf ≠ [] ∧ room.sum + buf.length ≤ resp.length ∧
      (asked q host).length ≤ fed.sum + L) ∧
    (s.waits = none → resp.length ≤ room.sum ∧ (asked q host).length ≤ fed.sum + L) := by
  intro s resp
  generalize hs0 : Sock.start (asked q host) false fed false room = s0
  obtain ⟨h1, h2, h3⟩ := hreads s0 (by rw [← hs0]; rfl) (by rw [← hs0]; rfl)
  have hra : ReadsApart Sock := fun s n => (s.read_rest n).1
  obtain ⟨t, hd, he⟩ := ha.body
  obtain ⟨g1, s', g2, _, g3⟩ := serve_succeeds hra (sock_reliable c) (fun _ _ _ => trivial) h ho errText s0 self trivial r h1
    ha.version bs t hd he
  have hs : s = s' := by
    show serving h errText self (Sock.start _ _ _ _ _) = s'
    unfold serving
    rw [hs0, g2]; rfl
  have hout : s.out = resp := by
    rw [hs]
    rw [Sock.sent_eq, Sock.sent_eq] at g3
    rw [g3, ← hs0]; simp [Sock.start, resp]
  -- the reading
  generalize hs1 : (h.serveOneInner errText s0 self).2.1 = s1 at h2 h3
  have hrk : ReadKept fun s : Sock => s.out = [] ∧ s.room = room ∧ s.Reading (asked q host).length fed.sum ∧
      ∀ buf, s.waits ≠ some (.write buf) := by
    refine ⟨fun s n hs => ?_⟩
    obtain ⟨g1, g2, g3⟩ := s.read_rest n
    exact ⟨by rw [g1]; exact hs.1, by rw [g2]; exact hs.2.1, hs.2.2.1.read n,
      fun buf hw => hs.2.2.2 buf (s.read_waits_write n buf hw)⟩
  have hread := inner_kept hrk h ho errText (s := s0) self (by
    rw [← hs0]
    exact ⟨rfl, rfl, ⟨fun _ => ⟨hfed, by simp [Sock.start]; omega, .inr (by simp [Sock.start]; omega)⟩, by simp [Sock.start]⟩,
      by simp [Sock.start]⟩)
  rw [hs1] at hread
  obtain ⟨r1, r2, r3, r4⟩ := hread
  -- the writing
  have hk := sock_kept s1 room.sum
  have hstart : s1.Writing room.sum := by
    refine ⟨fun _ => ⟨by rw [r1, r2]; simp, by rw [r2]; exact hroom⟩, fun buf hx => absurd hx (r4 buf)⟩
  have hend : s.Writing room.sum ∧ ∀ n, s.waits = some (.read n) ↔ s1.waits = some (.read n) := by
    obtain ⟨_, e2⟩ := serveOne_respond h errText s0 self r h1
    rw [hs1, g2] at e2
    simp only [Option.some.injEq] at e2
    have k1 := hk.writePieces (c := c) (s := s1) (ps := r.headPieces) ⟨rfl, rfl, rfl, rfl, hstart, fun _ => Iff.rfl⟩
    have : (fun s : Sock => s.input = s1.input ∧ s.closes = s1.closes ∧ s.fed = s1.fed ∧ s.ended = s1.ended ∧ s.Writing room.sum ∧
      (∀ n, s.waits = some (.read n) ↔ s1.waits = some (.read n))) (respond c r s1).2.2 := by
      unfold respond HttpResponse.serialize
      rcases hp : writePieces c s1 r.headPieces with ⟨e | _, s2⟩ <;> rw [hp] at k1
      · exact k1
      · dsimp only
        have k2 := hk.copy (c := c) (r := r.body) (n := 0) k1
        rcases hcp : copy c r.body s2 0 with ⟨e | _, b, s3⟩ <;> rw [hcp] at k2 <;> exact k2
    rw [hs, e2]
    exact ⟨this.2.2.2.2.1, this.2.2.2.2.2⟩
  have hfree : s1.waits = none → (asked q host).length ≤ fed.sum + L := by
    intro hx
    have := (r3.free hx).2.1
    omega
  have hnone : (∀ n, s.waits ≠ some (.read n)) → s1.waits = none := by
    intro hx
    rcases hy : s1.waits with _ | ⟨n⟩ | buf
    · rfl
    · exact absurd ((hend.2 n).2 hy) (hx n)
    · exact absurd hy (r4 buf)
  refine ⟨hout, fun n hx => ?_, fun buf hx => ?_, fun hx => ?_⟩
  · obtain ⟨e1, e2⟩ := r3.held n ((hend.2 n).1 hx)
    refine ⟨e1, ?_, (hend.2 n).1 hx⟩
    rcases e2 with e2 | ⟨_, e2⟩
    · exact e2
    · rw [h2] at e2; simp at e2
  · obtain ⟨e1, e2⟩ := hend.1.held buf hx
    rw [hout] at e2
    exact ⟨e1, e2, hfree (hnone fun n hy => by rw [hx] at hy; simp at hy)⟩
  · obtain ⟨e1, _⟩ := hend.1.free hx
    rw [hout] at e1
    exact ⟨by omega, hfree (hnone fun n hy => by rw [hx] at hy; simp at hy)⟩

/-- The same of a handler that reads an upload to its end. -/
theorem server_shape (q : Ask) (hq : q.Readable) (host : Bytes) (hhost : q.url.host = some host)
    (h : Handler c η Sock ρ ε) (self : η) (reply : Reply ε (ServerResponse c ρ)) (hw : Replies h q self reply)
    (ho : OnlyReads h) (errText : Err → Bytes) (r : ServerResponse c ρ) (hr : AnswerIs h reply r) (bs : Bytes) (ha : Answers r bs)
    (fed room : List Nat) (hfed : ∀ x ∈ fed, 0 < x) (hroom : ∀ x ∈ room, 0 < x) :
    let s := serving h errText self (Sock.start (asked q host) false fed false room)
    let resp := responseHead r.status.display r.headers.entries ++ bs
    s.out = resp ∧
    (∀ n, s.waits = some (.read n) → 0 < n ∧ fed.sum < (asked q host).length) ∧
    (∀ buf, s.waits = some (.write buf) → buf ≠ [] ∧ room.sum + buf.length ≤ resp.length ∧
      (asked q host).length ≤ fed.sum + 2) ∧
    (s.waits = none → resp.length ≤ room.sum ∧ (asked q host).length ≤ fed.sum + 2) := by
  obtain ⟨h1, h2, h3, h4⟩ := server_shape_of q host h self ho errText r bs ha 2 (fun s hi hc => by
    obtain ⟨g1, g2⟩ := server_reads q hq host hhost h self reply hw errText s hi hc
    exact ⟨g1 r hr, g2⟩) fed room hfed hroom
  exact ⟨h1, fun n hn => ⟨(h2 n hn).1, (h2 n hn).2.1⟩, h3, h4⟩

end

/-! ### The two together -/

section
variable (client server : Sock → Sock) (req resp : Bytes)

/-- What the client is known to wait for. -/
def ClientShape : Prop := ∀ (fed room : List Nat) (ended : Bool), (∀ x ∈ fed, 0 < x) → (∀ x ∈ room, 0 < x) →
  let s := client (.start resp true fed ended room)
  s.out = req ∧ (∀ buf, s.waits = some (.write buf) → buf ≠ [] ∧ room.sum + buf.length ≤ req.length) ∧
  (∀ n, s.waits = some (.read n) → 0 < n ∧ req.length ≤ room.sum ∧ (fed.sum < resp.length ∨ ended = false)) ∧
  (s.waits = none → req.length ≤ room.sum)

/-- What the server is known to wait for: it leaves at most `L` bytes of the request unread. -/
def ServerShape (L : Nat) : Prop := ∀ (fed room : List Nat), (∀ x ∈ fed, 0 < x) → (∀ x ∈ room, 0 < x) →
  let s := server (.start req false fed false room)
  s.out = resp ∧ (∀ n, s.waits = some (.read n) → 0 < n ∧ fed.sum < req.length) ∧
  (∀ buf, s.waits = some (.write buf) → buf ≠ [] ∧ room.sum + buf.length ≤ resp.length ∧ req.length ≤ fed.sum + L) ∧
  (s.waits = none → resp.length ≤ room.sum ∧ req.length ≤ fed.sum + L)

/-- What holds at all times. -/
structure LinkInv (ku kd : Nat) (x : Link) : Prop where
  pos : (∀ k ∈ x.clientRoom, 0 < k) ∧ (∀ k ∈ x.clientFed, 0 < k) ∧ (∀ k ∈ x.serverFed, 0 < k) ∧ ∀ k ∈ x.serverRoom, 0 < k
  upRoom : x.up ≤ ku
  downRoom : x.down ≤ kd
  cw : x.clientRoom.sum ≤ req.length
  sw : x.serverRoom.sum ≤ resp.length
  up : x.up + x.serverFed.sum ≤ x.clientRoom.sum ∧
    ((x.serverEnd server req).waits ≠ none → x.up + x.serverFed.sum = x.clientRoom.sum)
  down : x.down + x.clientFed.sum ≤ x.serverRoom.sum ∧
    ((x.clientEnd client resp).waits ≠ none → x.down + x.clientFed.sum = x.serverRoom.sum)
  ended : x.clientEnded = true → resp.length ≤ x.clientFed.sum

/-- How much there is still to do. -/
def Link.todo (x : Link) : Nat :=
  2 * (req.length - x.clientRoom.sum) + x.up + (2 * (resp.length - x.serverRoom.sum) + x.down) + (if x.clientEnded then 0 else 1)

variable {client server req resp}

theorem linkInv_init (ku kd : Nat) : LinkInv client server req resp ku kd .init := by
  constructor <;> simp [Link.init]

theorem pos_append {l : List Nat} {k : Nat} (h : ∀ x ∈ l, 0 < x) (hk : 0 < k) : ∀ x ∈ l ++ [k], 0 < x := by
  intro x hx
  simp only [List.mem_append, List.mem_singleton] at hx
  rcases hx with hx | rfl
  · exact h x hx
  · exact hk

theorem linkInv_step (hc : ClientShape client req resp) {L : Nat} (hs : ServerShape server req resp L) {ku kd : Nat} {x y : Link}
    (hi : LinkInv client server req resp ku kd x) (h : Link.Step client server req resp ku kd x y) :
    LinkInv client server req resp ku kd y ∧ y.todo req resp < x.todo req resp := by
  obtain ⟨⟨p1, p2, p3, p4⟩, i1, i2, i3, i4, ⟨i5, i6⟩, ⟨i7, i8⟩, i9⟩ := hi
  obtain ⟨_, c1, c2, c3⟩ := hc x.clientFed x.clientRoom x.clientEnded p2 p1
  obtain ⟨_, s1, s2, s3⟩ := hs x.serverFed x.serverRoom p3 p4
  cases h with
  | clientWrite k hw h1 h2 h3 =>
    obtain ⟨_, c1⟩ := c1 _ hw
    have hsum : (x.clientRoom ++ [k]).sum = x.clientRoom.sum + k := by simp
    have e := i8 (by rw [hw]; simp)
    refine ⟨⟨⟨pos_append p1 h1, p2, p3, p4⟩, h3, i2, by rw [hsum]; omega, i4, ⟨by rw [hsum]; dsimp only; omega, fun hx => ?_⟩,
      ⟨i7, fun _ => e⟩, i9⟩, by unfold Link.todo; rw [hsum]; dsimp only; omega⟩
    have := i6 hx
    rw [hsum]; dsimp only; omega
  | clientRead k hw h1 h2 h3 =>
    have hsum : (x.clientFed ++ [k]).sum = x.clientFed.sum + k := by simp
    have e := i8 (by rw [hw]; simp)
    refine ⟨⟨⟨p1, pos_append p2 h1, p3, p4⟩, i1, by dsimp only; omega, i3, i4, ⟨i5, i6⟩,
      ⟨by rw [hsum]; dsimp only; omega, fun _ => by rw [hsum]; dsimp only; omega⟩, fun hx => ?_⟩, by unfold Link.todo; dsimp only; omega⟩
    have := i9 hx
    rw [hsum]; omega
  | clientClosed hw h1 h2 h3 =>
    have e := i8 (by rw [hw]; simp)
    obtain ⟨s3, _⟩ := s3 h2
    refine ⟨⟨⟨p1, p2, p3, p4⟩, i1, i2, i3, i4, ⟨i5, i6⟩, ⟨i7, fun _ => e⟩, fun _ => by dsimp only; omega⟩, ?_⟩
    unfold Link.todo
    dsimp only
    rw [h3]
    simp
  | serverRead k hw h1 h2 h3 =>
    have hsum : (x.serverFed ++ [k]).sum = x.serverFed.sum + k := by simp
    have e := i6 (by rw [hw]; simp)
    exact ⟨⟨⟨p1, p2, pos_append p3 h1, p4⟩, by dsimp only; omega, i2, i3, i4, ⟨by rw [hsum]; dsimp only; omega,
      fun _ => by rw [hsum]; dsimp only; omega⟩, ⟨i7, i8⟩, i9⟩, by unfold Link.todo; dsimp only; omega⟩
  | serverWrite k hw h1 h2 h3 =>
    obtain ⟨_, s2, _⟩ := s2 _ hw
    have hsum : (x.serverRoom ++ [k]).sum = x.serverRoom.sum + k := by simp
    have e := i6 (by rw [hw]; simp)
    refine ⟨⟨⟨p1, p2, p3, pos_append p4 h1⟩, i1, h3, i3, by rw [hsum]; omega, ⟨i5, fun _ => e⟩,
      ⟨by rw [hsum]; dsimp only; omega, fun hx => ?_⟩, i9⟩, by unfold Link.todo; rw [hsum]; dsimp only; omega⟩
    have := i8 hx
    rw [hsum]; dsimp only; omega
  | dropUp hw h1 =>
    exact ⟨⟨⟨p1, p2, p3, p4⟩, by dsimp only; omega, i2, i3, i4, ⟨by dsimp only; omega, fun hx => absurd hw hx⟩, ⟨i7, i8⟩, i9⟩,
      by unfold Link.todo; dsimp only; omega⟩
  | dropDown hw h1 =>
    exact ⟨⟨⟨p1, p2, p3, p4⟩, i1, by dsimp only; omega, i3, i4, ⟨i5, i6⟩, ⟨by dsimp only; omega, fun hx => absurd hw hx⟩, i9⟩,
      by unfold Link.todo; dsimp only; omega⟩

theorem linkInv_run (hc : ClientShape client req resp) {L : Nat} (hs : ServerShape server req resp L) {ku kd n : Nat} {x : Link}
    (h : Link.Run client server req resp ku kd n .init x) :
    LinkInv client server req resp ku kd x ∧ n + x.todo req resp ≤ 2 * (req.length + resp.length) + 1 := by
  generalize hx0 : Link.init = x0 at h
  induction h with
  | refl x =>
    subst hx0
    refine ⟨linkInv_init ku kd, ?_⟩
    unfold Link.todo
    simp [Link.init]
    omega
  | step h1 h2 ih =>
    obtain ⟨i1, i2⟩ := ih hx0
    obtain ⟨j1, j2⟩ := linkInv_step hc hs i1 h2
    exact ⟨j1, by omega⟩

theorem linkInv_progress (hc : ClientShape client req resp) {L : Nat} (hs : ServerShape server req resp L) {ku kd : Nat} (hu : 1 ≤ ku)
    (hd : 1 ≤ kd) (hL : L ≤ ku ∨ resp.length ≤ kd) {x : Link} (hi : LinkInv client server req resp ku kd x) :
    Done client server req resp x ∨ ∃ y, Link.Step client server req resp ku kd x y := by
  obtain ⟨⟨p1, p2, p3, p4⟩, i1, i2, i3, i4, ⟨i5, i6⟩, ⟨i7, i8⟩, i9⟩ := hi
  obtain ⟨_, c1, c2, c3⟩ := hc x.clientFed x.clientRoom x.clientEnded p2 p1
  obtain ⟨_, s1, s2, s3⟩ := hs x.serverFed x.serverRoom p3 p4
  have readStep : ∀ n, (x.serverEnd server req).waits = some (.read n) → 0 < x.up →
      ∃ y, Link.Step client server req resp ku kd x y := fun n hw h =>
    ⟨_, .serverRead 1 hw (by omega) (s1 n hw).1 h⟩
  have writeStep : ∀ buf, (x.serverEnd server req).waits = some (.write buf) → x.down < kd →
      ∃ y, Link.Step client server req resp ku kd x y := fun buf hw h =>
    ⟨_, .serverWrite 1 hw (by omega) (List.length_pos_iff.2 (s2 buf hw).1) h⟩
  rcases hcw : (x.clientEnd client resp).waits with _ | n | buf
  · have c3 := c3 hcw
    rcases hsw : (x.serverEnd server req).waits with _ | m | buf
    · exact .inl ⟨hcw, hsw⟩
    · have := (s1 m hsw).2
      have e := i6 (by rw [hsw]; simp)
      exact .inr (readStep m hsw (by omega))
    · by_cases h : x.down < kd
      · exact .inr (writeStep buf hsw h)
      · exact .inr ⟨_, .dropDown hcw (by omega)⟩
  · obtain ⟨k1, k2, k3⟩ := c2 n hcw
    have e' := i8 (by rw [hcw]; simp)
    by_cases h : 0 < x.down
    · exact .inr ⟨_, .clientRead 1 hcw (by omega) k1 h⟩
    rcases hsw : (x.serverEnd server req).waits with _ | m | buf
    · have := (s3 hsw).1
      cases he : x.clientEnded with
      | false => exact .inr ⟨_, .clientClosed hcw (by omega) hsw he⟩
      | true =>
        have := i9 he
        rcases k3 with k3 | k3
        · omega
        · rw [he] at k3; simp at k3
    · have := (s1 m hsw).2
      have e := i6 (by rw [hsw]; simp)
      exact .inr (readStep m hsw (by omega))
    · exact .inr (writeStep buf hsw (by omega))
  · obtain ⟨k1, k2⟩ := c1 buf hcw
    have hlen := List.length_pos_iff.2 k1
    by_cases h : x.up < ku
    · exact .inr ⟨_, .clientWrite 1 hcw (by omega) hlen h⟩
    rcases hsw : (x.serverEnd server req).waits with _ | m | buf'
    · exact .inr ⟨_, .dropUp hsw (by omega)⟩
    · exact .inr (readStep m hsw (by omega))
    · have := (s2 buf' hsw).2
      have := List.length_pos_iff.2 (s2 buf' hsw).1
      have := i6 (by rw [hsw]; simp)
      exact .inr (writeStep buf' hsw (by omega))

end

end HttpIo
