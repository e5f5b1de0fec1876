import Verif.Lemmas.Talker
import Verif.Props.Pool

/-! C45: requests one after the other on one connection. -/

namespace HttpIo
open Spec

section
variable [CaseMap] {c : Cfg} {ω α σ : Type} [DecidableEq α] [PeerSocket σ] [ZeroReader σ]

/-- One use of the client for a request that is sent and used in this way. -/
theorem exchange_step (N : StreamConnector ω α σ) (q : Ask) (cl : HttpClient α σ) (w : ω) (a : α)
    (haddr : ∀ w, (N.toStreamAddr q.url w).1 = .ok a) {s s' : σ} {b : HttpRequestBuilder c} {o : OutgoingRequest c σ}
    {out : Outcome} (hs : poolGet a cl.streams = some s ∨ poolGet a cl.streams = none ∧ ∀ w, (N.connect a w).1 = .ok s)
    (h1 : HttpRequestBuilder.new c (HttpUrl.tryFrom q.url) (if q.put then .Put else .Get) = .ok b)
    (h2 : b.send s = .ok o) (h3 : roundTrip q.writes q.sizes o = (out, s')) :
    ∃ cl' w', exchange N (q.exchange (c := c)) cl w = (.ok out, cl', w') ∧ poolGet a cl'.streams = some s' := by
  have ha := haddr w
  rcases hw1 : N.toStreamAddr q.url w with ⟨r, w1⟩
  rw [hw1] at ha
  dsimp only at ha
  subst ha
  have hs' : ∃ w2, (poolGet a cl.streams = some s ∧ w2 = w1) ∨
      (poolGet a cl.streams = none ∧ N.connect a w1 = (.ok s, w2)) := by
    rcases hs with h | ⟨h, hc⟩
    · exact ⟨w1, .inl ⟨h, rfl⟩⟩
    · exact ⟨(N.connect a w1).2, .inr ⟨h, Prod.ext (hc w1) rfl⟩⟩
  obtain ⟨w2, hs'⟩ := hs'
  obtain ⟨cl', e1, e2, _⟩ := exchange_on N (Ask.exchange (c := c) q) cl w w1 w2 q.url b rfl h1 a s hw1 hs'
  rw [h2] at e1 e2
  dsimp only [Ask.exchange] at e1 e2
  rw [h3] at e1 e2
  exact ⟨cl', w2, e1, e2⟩

/-- If all requests go to one address, whose connection is idle (new or pooled) and whose peer answers each request
with a response of declared length, and each response is read to its end: the k-th request obtains the k-th response,
its status, headers and body, for every number of requests. Meanwhile the client never reads beyond a response: it does
not meet what the idle peer gives (`idle`, such as a time limit). -/
theorem C45_sequential (N : StreamConnector ω α σ) (P : σ → Prop) (hr : Reliable c P) (idle : List Ev)
    (hP : ∀ s n, P s → idle <:+ trace (read s n).2 → P (read s n).2) (hidle : ∀ b t, idle ≠ .byte b :: t)
    (a : α) (list : List (Ask × Answer)) (haddr : ∀ x ∈ list, ∀ w, (N.toStreamAddr x.1.url w).1 = .ok a)
    (hq : ∀ x ∈ list, x.1.Proper ∧ x.2.Proper ∧ Positive x.1.sizes ∧ x.2.body.length ≤ x.1.sizes.length)
    (cl : HttpClient α σ) (s : σ)
    (hs : poolGet a cl.streams = some s ∨ poolGet a cl.streams = none ∧ ∀ w, (N.connect a w).1 = .ok s)
    (hPs : P s) (hfl : wire s = sent s) (hpend : trace s = idle)
    (hserves : Serves (Answer.Sent c) (PeerSocket.peer s) idle (wire s) (PeerSocket.taken s) list) (w : ω) :
    (history (c := c) N (list.map fun x => x.1.exchange) cl w).1.length = list.length ∧
    ∀ (k : Nat) q ans, list[k]? = some (q, ans) →
      ∃ st rs, (history (c := c) N (list.map fun x => x.1.exchange) cl w).1[k]? = some (.ok (.got st ans.headers rs)) ∧
        st.toCode = ans.status.toCode ∧ ((∀ n, ans.status ≠ .Unknown n) → st = ans.status) ∧ ReadAll rs ans.body := by
  have hrest : Rests P (PeerSocket.peer s) idle [] (PeerSocket.taken s) (wire s) s :=
    ⟨hPs, hfl, rfl, rfl, hpend, List.append_nil _⟩
  generalize PeerSocket.peer s = pr at hserves hrest
  generalize PeerSocket.taken s = got at hserves hrest
  generalize wire s = wr at hserves hrest
  clear hPs hfl hpend
  induction list generalizing cl s w got wr with
  | nil => simp [history]
  | cons x list ih =>
    obtain ⟨q, ans⟩ := x
    obtain ⟨p1, p2, p3, p4⟩ := hq (q, ans) (by simp)
    obtain ⟨b, o, s', st, rs, got', wr', h1, h2, h3, h4, h5, h6, h7⟩ :=
      roundTrip_answered hr idle hP hidle hrest q p1 ans ans p2 (fun _ h => h) p3 p4 list hserves
    obtain ⟨cl', w2, e1, e2⟩ := exchange_step N q cl w a (haddr (q, ans) (by simp)) hs h1 h2 h3
    obtain ⟨i1, i2⟩ := ih (fun x hx => haddr x (by simp [hx])) (fun x hx => hq x (by simp [hx])) cl' s' (.inl e2) w2
      got' wr' h7 h6
    have hh : (history (c := c) N (((q, ans) :: list).map fun x => x.1.exchange) cl w).1 =
        .ok (.got st ans.headers rs) :: (history (c := c) N (list.map fun x => x.1.exchange) cl' w2).1 := by
      rw [List.map_cons, history]
      dsimp only
      rw [e1]
    rw [hh]
    refine ⟨by simp [i1], fun k q' ans' hk => ?_⟩
    cases k with
    | zero =>
      simp only [List.getElem?_cons_zero, Option.some.injEq, Prod.mk.injEq] at hk
      obtain ⟨rfl, rfl⟩ := hk
      refine ⟨st, rs, rfl, by rw [h4, C01_code_lossless], fun hn => ?_, h5⟩
      rw [h4]
      cases hst : ans.status with
      | Unknown n => exact absurd hst (hn n)
      | _ => rfl
    | succ k =>
      rw [List.getElem?_cons_succ] at hk ⊢
      exact i2 k q' ans' hk

end

/-- A response to each of two requests. -/
def twoAnswers : List (Ask × Answer) :=
  [(⟨false, sampleUrl, [], [3, 3, 3]⟩, ⟨.OK, ⟨[(b!"content-length", b!"2")]⟩, b!"hi"⟩),
   (⟨false, sampleUrl, [], [2, 2, 2, 2]⟩, ⟨.NotFound, ⟨[(b!"content-length", b!"3")]⟩, b!"yo!"⟩)]

/-- The bytes of a response. -/
def answerBytes (a : Answer) : Bytes := responseHead a.status.display a.headers.entries ++ a.body

/-- A peer that answers when it has received as many bytes as one request, and as two requests. -/
def twoReplies (idle : Option Err) : Talker where
  reply w :=
    if w.length < 62 then [] else answerBytes twoAnswers[0].2 ++ if w.length < 124 then [] else answerBytes twoAnswers[1].2
  mono w x := by
    rw [List.length_append]
    by_cases h1 : w.length < 62
    · rw [if_pos h1]; exact List.nil_prefix
    · rw [if_neg h1, if_neg (show ¬ w.length + x.length < 62 by omega)]
      refine (List.prefix_append_right_inj _).2 ?_
      by_cases h2 : w.length < 124
      · rw [if_pos h2]; exact List.nil_prefix
      · rw [if_neg h2, if_neg (by omega)]; exact List.prefix_refl _
  idle := idle
  seg := 4
  sink := ⟨[], 0, [.accept 3, .accept 1]⟩
  got := []
  got_le := List.nil_prefix
  dead := false
  dead_got := by simp

theorem twoAnswers_proper : let _ := asciiCase; ∀ x ∈ twoAnswers, x.1.Proper ∧ x.2.Proper ∧ Positive x.1.sizes ∧
    x.2.body.length ≤ x.1.sizes.length := by
  intro _ x hx
  have h1 : ∀ sizes, Ask.Proper ⟨false, sampleUrl, [], sizes⟩ := fun sizes =>
    { ascii := by dsimp only; rw [← isAscii_iff]; decide
      scheme := .inr (by unfold SecureHttp; rw [utf8_https]; exact sameText_refl _)
      host := ⟨_, rfl⟩
      small := by simp [written]
      bodiless := fun _ => rfl }
  have h2 : ∀ st b, (b = b!"2" ∨ b = b!"3") → ∀ body : Bytes, LengthText b body.length →
      Answer.Proper ⟨st, ⟨[(b!"content-length", b)]⟩, body⟩ := by
    intro st b hb body hl
    refine ⟨⟨by unfold SortedNames; simp, ?_, ?_⟩, .limited (by simp) (by simp) hl⟩
    · intro kv hkv; simp at hkv; subst hkv; dsimp only; decide
    · intro kv hkv
      simp only [List.mem_cons, List.not_mem_nil, or_false] at hkv
      rcases hb with rfl | rfl <;> subst hkv <;>
        exact ⟨isText_ascii (by decide), by decide, by unfold HasCrLf; decide, by rw [← startsBlank_iff]; decide,
          isText_ascii (by decide), by unfold HasCrLf; decide⟩
  simp only [twoAnswers, List.mem_cons, List.not_mem_nil, or_false] at hx
  rcases hx with rfl | rfl
  · exact ⟨h1 _, h2 _ _ (.inl rfl) _ (lengthText_iff.1 (by decide)), by unfold Positive; decide, by decide⟩
  · exact ⟨h1 _, h2 _ _ (.inr rfl) _ (lengthText_iff.1 (by decide)), by unfold Positive; decide, by decide⟩

theorem twoReplies_serve (c : Cfg) (idle : Option Err) :
    Serves (Answer.Sent c) (PeerSocket.peer (twoReplies idle)) (match idle with | some e => [.fault e] | none => []) [] [] twoAnswers := by
  have hb : ∀ sizes bytes, Ask.Bytes ⟨false, sampleUrl, [], sizes⟩ bytes → bytes.length = 62 := by
    rintro sizes bytes ⟨host, h1, h2⟩
    simp only [sampleUrl, Option.some.injEq] at h1
    subst h1
    rw [if_neg (by simp)] at h2
    rw [h2]
    have : (requestHead .Get (requestTarget { sampleUrl with query := none }) (standardHeaders .Get b!"h")).length = 62 := by
      decide +kernel
    exact this
  intro bytes h1
  have h1 := hb _ _ h1
  refine ⟨(answerBytes twoAnswers[0].2).map .byte, ?_, ⟨_, List.map_append, ?_⟩, ?_⟩
  · show Talker.said (twoReplies idle) _ = _
    unfold Talker.said
    have : (twoReplies idle).reply ([] ++ bytes) = answerBytes twoAnswers[0].2 := by
      simp [twoReplies, h1]
    rw [this]; rfl
  · have := delivers_map c (responseHead (HttpStatus.display .OK) [(b!"content-length", b!"2")]) []
    rw [List.append_nil] at this
    exact this
  intro bytes' h2
  have h2 := hb _ _ h2
  refine ⟨(answerBytes twoAnswers[1].2).map .byte, ?_, ⟨_, List.map_append, ?_⟩, trivial⟩
  · show Talker.said (twoReplies idle) _ = _
    unfold Talker.said
    have : (twoReplies idle).reply ([] ++ bytes ++ bytes') = answerBytes twoAnswers[0].2 ++ answerBytes twoAnswers[1].2 := by
      simp [twoReplies, h1, h2]
    rw [this, List.map_append]; rfl
  · have := delivers_map c (responseHead (HttpStatus.display .NotFound) [(b!"content-length", b!"3")]) []
    rw [List.append_nil] at this
    exact this

/-- Witness: the hypotheses of `C45_sequential` hold for two requests on a new connection to a peer that answers in
segments of five bytes, on which reading beyond the responses gives an error (or end of stream). -/
example (c : Cfg) (idle : Option Err) : let _ := asciiCase
    let N : StreamConnector Unit Unit Talker := ⟨fun _ w => (.ok (twoReplies idle), w), fun _ w => (.ok (), w)⟩
    (history (c := c) N (twoAnswers.map fun x => x.1.exchange) HttpClient.new ()).1.length = 2 ∧
    ∀ (k : Nat) q ans, twoAnswers[k]? = some (q, ans) →
      ∃ st rs, (history (c := c) N (twoAnswers.map fun x => x.1.exchange) HttpClient.new ()).1[k]? =
        some (.ok (.got st ans.headers rs)) ∧
        st.toCode = ans.status.toCode ∧ ((∀ n, ans.status ≠ .Unknown n) → st = ans.status) ∧ ReadAll rs ans.body := by
  intro _ N
  refine @C45_sequential asciiCase c Unit Unit Talker _ _ _ N _ (talker_reliable c idle)
    (match idle with | some e => [.fault e] | none => []) ?_ ?_ () twoAnswers (fun _ _ _ => rfl) twoAnswers_proper
    HttpClient.new (twoReplies idle) (.inr ⟨rfl, fun _ => rfl⟩) ⟨rfl, rfl, ?_⟩ rfl ?_ ?_ ()
  · intro s n hs hi
    have hk : (read s n).2.sink = s.sink := by
      rcases s.read_cases n with ⟨_, e, _, _, _, _, h, _⟩ | ⟨_, _, h⟩ | ⟨p, q, _, _, _, _, _, _, h, _⟩ <;> rw [h]
    have hd : (read s n).2.idle = idle ∧ (read s n).2.dead = false := by
      rcases s.read_cases n with ⟨h1, e, h2, h3, h4, h5, _, _, h6, h7⟩ | ⟨_, _, h⟩ | ⟨p, q, _, _, _, _, _, _, _, _, h1, h2⟩
      · rw [Talker.trace_eq, h5, h1] at hi
        unfold Talker.tail at hi
        rw [h6, h7, h2] at hi
        have : idle = some e := by rw [← hs.1, h2]
        rw [this] at hi
        simp at hi
      · rw [h]; exact ⟨hs.1, hs.2.1⟩
      · rw [h1, h2]; exact ⟨hs.1, hs.2.1⟩
    exact ⟨hd.1, hd.2, by rw [hk]; exact hs.2.2⟩
  · intro b t; cases idle <;> simp
  · intro a ha
    simp [twoReplies] at ha
    rcases ha with rfl | rfl
    · exact .inl ⟨2, rfl⟩
    · exact .inl ⟨0, rfl⟩
  · cases idle <;> rfl
  · have : PeerSocket.taken (twoReplies idle) = [] := by
      show Talker.heard _ = []
      unfold Talker.heard Talker.past
      cases idle <;> rfl
    rw [this]; exact twoReplies_serve c idle

end HttpIo
