import Verif.Spec.Attempts
import Verif.Props.Remote
import Verif.Props.Partly

/-! C196: repeating a call until its answer comes. -/

namespace HttpIo
open Spec

section
variable [CaseMap] {c : Cfg} {κ : Type}

/-- What the attempts come to, once the call has been made. -/
theorem attempts_after {errText : Err → Bytes} {S : Service κ} {x : RemoteCall} {res : Res Unit} {out : Bytes} {k k1 : κ}
    (hr : Repeatable S x res out k k1) (as : List (Bytes × Option Err)) (ha : ∀ a ∈ as, AsksWholly c x a ∨ InVain c errText S k1 a) :
    ∃ outs, ServesAll c errText S k1 (as.map .ok) outs k1 ∧ outs.length = as.length ∧
      ∀ (i : Nat) a, as[i]? = some a → AsksWholly c x a → outs[i]? = some (res, some out) := by
  induction as with
  | nil => exact ⟨[], .nil, rfl, by simp⟩
  | cons a as ih =>
    obtain ⟨outs, h1, h2, h3⟩ := ih fun a h => ha a (by simp [h])
    by_cases hw : AsksWholly c x a
    · refine ⟨_, .next (done_serves hr.2.2 hw errText) hr.1 h1, by simp [h2], fun i a' hi hw' => ?_⟩
      cases i with
      | zero => rfl
      | succ i => exact h3 i a' (by simpa using hi) hw'
    · obtain ⟨res', out', g1, g2⟩ := (ha a (by simp)).resolve_left hw
      refine ⟨_, .next g2 g1 h1, by simp [h2], fun i a' hi hw' => ?_⟩
      cases i with
      | zero =>
        simp only [List.getElem?_cons_zero, Option.some.injEq] at hi
        subst hi
        exact absurd hw' hw
      | succ i => exact h3 i a' (by simpa using hi) hw'

/-- What the attempts come to from the beginning. -/
theorem attempts_serve {errText : Err → Bytes} {S : Service κ} {x : RemoteCall} {res : Res Unit} {out : Bytes} {k k1 : κ}
    (hr : Repeatable S x res out k k1) (as : List (Bytes × Option Err))
    (ha : ∀ a ∈ as, AsksWholly c x a ∨ InVain c errText S k a ∧ InVain c errText S k1 a) :
    ∃ outs k', ServesAll c errText S k (as.map .ok) outs k' ∧ ((∃ a ∈ as, AsksWholly c x a) → k' = k1) ∧
      ((∀ a ∈ as, ¬ AsksWholly c x a) → k' = k) ∧ outs.length = as.length ∧
      ∀ (i : Nat) a, as[i]? = some a → AsksWholly c x a → outs[i]? = some (res, some out) := by
  induction as with
  | nil => exact ⟨[], k, .nil, by simp, by simp, rfl, by simp⟩
  | cons a as ih =>
    by_cases hw : AsksWholly c x a
    · obtain ⟨outs, h1, h2, h3⟩ := attempts_after (errText := errText) hr as fun a h => (ha a (by simp [h])).imp id And.right
      refine ⟨_, k1, .next (done_serves hr.2.1 hw errText) hr.1 h1, fun _ => rfl, fun h => absurd hw (h a (by simp)), by simp [h2],
        fun i a' hi hw' => ?_⟩
      cases i with
      | zero => rfl
      | succ i => exact h3 i a' (by simpa using hi) hw'
    · obtain ⟨outs, k', h1, h4, h5, h2, h3⟩ := ih fun a h => ha a (by simp [h])
      obtain ⟨res', out', g1, g2⟩ := ((ha a (by simp)).resolve_left hw).1
      refine ⟨_, k', .next g2 g1 h1, fun ⟨b, hb, hbw⟩ => ?_, fun h => h5 fun b hb => h b (by simp [hb]), by simp [h2],
        fun i a' hi hw' => ?_⟩
      · rcases List.mem_cons.1 hb with rfl | hb
        · exact absurd hbw hw
        · exact h4 ⟨b, hb, hbw⟩
      · cases i with
        | zero =>
          simp only [List.getElem?_cons_zero, Option.some.injEq] at hi
          subst hi
          exact absurd hw' hw
        | succ i => exact h3 i a' (by simpa using hi) hw'

theorem cameTo_length {xs ys : List (Res Unit × Option Bytes)} (h : AllCameTo xs ys) : ys.length = xs.length := by
  induction h with
  | nil => rfl
  | cons _ _ ih => simp [ih]

theorem cameTo_get {xs ys : List (Res Unit × Option Bytes)} (h : AllCameTo xs ys) {i : Nat} {x : Res Unit × Option Bytes} (hx : xs[i]? = some x) :
    ∃ y, ys[i]? = some y ∧ CameTo x y := by
  induction h generalizing i with
  | nil => simp at hx
  | cons h1 _ ih =>
    cases i with
    | zero =>
      simp only [List.getElem?_cons_zero, Option.some.injEq] at hx
      subst hx
      exact ⟨_, rfl, h1⟩
    | succ i => exact ih (by simpa using hx)

/-! ### C196 -/

/-- A call is attempted again and again. Some attempts may be cut off on their way to the server, and any answer may be cut off on its way
back. The service has been called once, or not at all if no attempt has come through; every attempt that has come through is sent a
beginning of the answer to the call, and is reported as done only if it is sent the whole of it. -/
theorem C196_repeat {η σ ρ ε : Type} [LawfulReader σ] [ZeroReader σ] [LawfulWriter σ] [LawfulReader ρ] [ZeroReader ρ] (hra : ReadsApart σ)
    (h : Handler c η σ ρ ε) (ho : OnlyReads h) (stands : η → κ → Prop) (S : Service κ) (hp : Provides h stands S) (errText : Err → Bytes)
    (x : RemoteCall) (res : Res Unit) (out : Bytes) (k k1 : κ) (hr : Repeatable S x res out k k1)
    (attempts : List (σ × Bytes × Option Err))
    (hconn : ∀ s input stop, (s, input, stop) ∈ attempts → sent s = [] ∧ Final c stop ∧ stop ≠ some .lengthRequired ∧
      trace s = input.map .byte ++ endEvents stop)
    (ha : ∀ a ∈ attempts, AsksWholly c x a.2 ∨ InVain c errText S k a.2 ∧ InVain c errText S k1 a.2) (self : η) (hk : stands self k) :
    let life := h.serveForever errText (attempts.map fun a => .ok a.1) self
    ((∃ a ∈ attempts, AsksWholly c x a.2) → stands life.2 k1) ∧ ((∀ a ∈ attempts, ¬ AsksWholly c x a.2) → stands life.2 k) ∧
      life.1.length = attempts.length ∧
      ∀ (i : Nat) a, attempts[i]? = some a → AsksWholly c x a.2 → ∃ res' d, life.1[i]? = some (res', some d) ∧ sent d <+: out ∧
        res' ≠ .panic ∧ (res' = .ok () → res = .ok () ∧ sent d = out) := by
  intro life
  obtain ⟨outs, k', h1, h2, h3, h4, h5⟩ := attempts_serve (c := c) (errText := errText) hr (attempts.map (·.2)) (by
    intro a hm
    obtain ⟨b, hb, rfl⟩ := List.mem_map.1 hm
    exact ha b hb)
  have hlife := C195_forever hra h ho stands S hp errText (attempts.map .ok) (by
    intro s input stop hx
    simp only [List.mem_map, Except.ok.injEq] at hx
    obtain ⟨y, hy, rfl⟩ := hx
    exact hconn _ _ _ hy) self k hk outs k' (by
      rw [List.map_map] at h1 ⊢
      exact h1)
  rw [List.map_map] at hlife
  change AllCameTo outs (life.1.map fun x => (x.1, x.2.map sent)) ∧ stands life.2 k' at hlife
  refine ⟨fun ⟨a, hm, hw⟩ => ?_, fun hn => ?_, ?_, fun i a hi hw => ?_⟩
  · rw [← h2 ⟨a.2, List.mem_map_of_mem hm, hw⟩]; exact hlife.2
  · rw [← h3 (by intro b hb; obtain ⟨a, hm, rfl⟩ := List.mem_map.1 hb; exact hn a hm)]; exact hlife.2
  · have := cameTo_length hlife.1
    rw [List.length_map] at this
    rw [this, h4, List.length_map]
  · obtain ⟨y, g1, g2⟩ := cameTo_get hlife.1 (h5 i a.2 (by rw [List.getElem?_map, hi]; rfl) hw)
    rw [List.getElem?_map] at g1
    cases hz : life.1[i]? with
    | none => rw [hz] at g1; simp at g1
    | some z =>
      rw [hz] at g1
      obtain ⟨res', d⟩ := z
      simp only [Option.map_some, Option.some.injEq] at g1
      subst g1
      cases d with
      | none => cases g2
      | some d =>
        cases g2 with
        | taken e1 e2 e3 => exact ⟨res', d, rfl, e1, fun h => hr.1 (e3.1 h), e2⟩

end

/-- Witness for `C196_repeat`: the first attempt breaks off in the first line; the second arrives, but its connection is gone after five
bytes of the answer; the third is answered. The text is stored, and the last two attempts are sent what the call is answered with. -/
example (c c' : Cfg) : let _ := asciiCase
    let answer := responseHead (utf8 "201 Created") []
    let d : Duplex Wire Sink := ⟨⟨[]⟩, ⟨[], 0, []⟩⟩
    ∃ b o o' d1, HttpRequestBuilder.new c (HttpUrl.tryFrom sampleUrl) .Put = .ok b ∧ b.send d = .ok o ∧
      perform o [.write b!"ab", .write b!"c"] = (true, o') ∧ o'.complete = .ok d1 ∧
      let gone := { stoppedConn (wire d1.wr) none with wr := { (stoppedConn (wire d1.wr) none).wr with plan := [.accept 5, .fault (.io (.other 32))] } }
      let life := (storeHandler c').serveForever (fun _ => []) [.ok (stoppedConn b!"PUT /p HT" none), .ok gone, .ok (stoppedConn (wire d1.wr) none)] b!"old"
      life.2 = b!"abc" ∧ life.1.length = 3 ∧
        (∃ res s, life.1[1]? = some (res, some s) ∧ sent s <+: answer ∧ res ≠ .panic) ∧
        ∃ res s, life.1[2]? = some (res, some s) ∧ sent s <+: answer ∧ (res = .ok () → sent s = answer) := by
  intro inst answer d
  have hfin : ∀ c : Cfg, Final c none := by intro c e h; simp at h
  have hlen : ∀ buf ∈ written [.write b!"ab", .write b!"c"], buf.length < 2 ^ 64 := by decide
  obtain ⟨b, o, o', d1, h1, h2, h3, h4⟩ := C55_sending (sink_reliable c) d (by intro a ha; change a ∈ [] at ha; simp at ha)
    sampleUrl b!"h" .Put sampleUrl_askable.ascii
    sampleUrl_askable.scheme rfl [] [.write b!"ab", .write b!"c"] (.inl (by simp [Carries]))
  have htext : IsText b!"h" ∧ ¬ HasCrLf b!"h" := ⟨isText_ascii (by decide), by unfold HasCrLf; decide⟩
  have htarget : SendableTarget (requestTarget { sampleUrl with query := none }) :=
    ⟨by decide, isText_ascii (by decide), by decide, by decide, by unfold HasCrLf; decide⟩
  have htgt : requestTarget { sampleUrl with query := none } = sampleUrl.path := by decide
  refine ⟨b, o, o', d1, h1, h2, h3, h4, ?_⟩
  intro gone life
  have hw : AsksWholly c' ⟨.Put, requestTarget { sampleUrl with query := none }, b!"abc"⟩ (wire d1.wr, none) :=
    C194_asks d d1 rfl sampleUrl b!"h" .Put b h1 rfl htext htarget [] (by simp) o o' h2 _ hlen h3 h4 none (hfin c')
  have hfault : AsksFor c' none b!"PUT /p HT" (.faulty .unexpectedEof) := by
    refine .malformed ?_
    rw [← stoppedConn_trace, ← C188_request]
    exact err_of (by rcases c' with ⟨_ | _⟩ <;> decide +kernel)
  have hvain : ∀ k, InVain c' (fun _ => []) storeService k (b!"PUT /p HT", none) := fun k => ⟨_, _, by simp, .faulty hfault⟩
  have hrep : Repeatable storeService ⟨.Put, requestTarget { sampleUrl with query := none }, b!"abc"⟩ (.ok ()) answer b!"old" b!"abc" :=
    ⟨by simp, .handed (.inr rfl), .handed (.inr rfl)⟩
  obtain ⟨g1, _, g2, g3⟩ := C196_repeat duplex_readsApart (storeHandler c') (storeHandler_reads c') Eq storeService (storeHandler_provides c')
    (fun _ => []) _ _ _ _ _ hrep
    [(stoppedConn b!"PUT /p HT" none, b!"PUT /p HT", none), (gone, wire d1.wr, none), (stoppedConn (wire d1.wr) none, wire d1.wr, none)]
    (by
      intro s input stop hx
      simp only [List.mem_cons, List.not_mem_nil, or_false, Prod.mk.injEq] at hx
      rcases hx with ⟨rfl, rfl, rfl⟩ | ⟨rfl, rfl, rfl⟩ | ⟨rfl, rfl, rfl⟩
      · exact ⟨rfl, hfin c', by simp, stoppedConn_trace _ _⟩
      · exact ⟨rfl, hfin c', by simp, by rw [← stoppedConn_trace]; rfl⟩
      · exact ⟨rfl, hfin c', by simp, stoppedConn_trace _ _⟩)
    (by
      intro a hx
      simp only [List.mem_cons, List.not_mem_nil, or_false] at hx
      rcases hx with rfl | rfl | rfl
      · exact .inr ⟨hvain _, hvain _⟩
      · exact .inl hw
      · exact .inl hw) b!"old" rfl
  obtain ⟨r1, s1, f1, f2, f3, _⟩ := g3 1 _ rfl hw
  obtain ⟨r2, s2, f4, f5, _, f6⟩ := g3 2 _ rfl hw
  exact ⟨g1 ⟨_, List.mem_cons_of_mem _ (List.mem_cons_self ..), hw⟩, g2, ⟨r1, s1, f1, f2, f3⟩, r2, s2, f4, f5, fun h => (f6 h).2⟩

end HttpIo
