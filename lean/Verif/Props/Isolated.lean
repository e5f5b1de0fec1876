import Verif.Spec.Isolated
import Verif.Props.Pool
import Verif.Spec.Peer

/-! C162: requests to one server have nothing to do with requests to others. -/

namespace HttpIo
open Spec

section
variable {α σ : Type} [DecidableEq α]

theorem connectionTo_eq (a : α) (cl : HttpClient α σ) : connectionTo a cl = poolGet a cl.streams := by
  obtain ⟨l⟩ := cl
  unfold connectionTo
  dsimp only
  induction l with
  | nil => rfl
  | cons x l ih =>
    obtain ⟨b, s⟩ := x
    unfold poolGet
    rw [List.find?_cons]
    by_cases h : b = a
    · rw [if_pos h.symm]; simp [h]
    · rw [if_neg (Ne.symm h)]; simpa [h] using ih

end

section
variable [CaseMap] {c : Cfg} {ω α σ β κ : Type} [DecidableEq α] [Writer σ] {N : StreamConnector ω α σ} {view : α → ω → κ}

/-- The same connection to `a` and the same state of the world as far as `a` is concerned. -/
def Agree (view : α → ω → κ) (a : α) (x y : HttpClient α σ × ω) : Prop :=
  poolGet a x.1.streams = poolGet a y.1.streams ∧ view a x.2 = view a y.2

omit [CaseMap] [Writer σ] in
theorem getStream_agree (hN : Separate N view) {a : α} {url : Url} {cl cl' : HttpClient α σ} {w w' : ω}
    (h : Agree view a (cl, w) (cl', w')) (ha : (N.toStreamAddr url w).1 = .ok a) :
    (cl.getStream N url w).1 = (cl'.getStream N url w').1 ∧ Agree view a (cl.getStream N url w).2 (cl'.getStream N url w').2 ∧
      ∀ x, (cl.getStream N url w).1 = .ok x → x.1 = a := by
  have ha' : (N.toStreamAddr url w').1 = .ok a := by rw [hN.lookup url w' w]; exact ha
  have hv := hN.lookup_view a url w
  have hv' := hN.lookup_view a url w'
  unfold HttpClient.getStream
  rcases e : N.toStreamAddr url w with ⟨r, w1⟩
  rcases e' : N.toStreamAddr url w' with ⟨r', w1'⟩
  rw [e] at ha hv
  rw [e'] at ha' hv'
  dsimp only at ha ha' hv hv'
  subst ha
  subst ha'
  dsimp only
  have hg := h.1
  dsimp only at hg
  have hv1 : view a w1 = view a w1' := by rw [hv, hv']; exact h.2
  rw [← hg]
  cases hp : poolGet a cl.streams with
  | some s => exact ⟨rfl, ⟨hg, hv1⟩, fun x hx => by simp only [Res.ok.injEq] at hx; rw [← hx]⟩
  | none =>
    dsimp only
    obtain ⟨k1, k2⟩ := hN.connect a w1 w1' hv1
    rcases f : N.connect a w1 with ⟨r, w2⟩
    rcases f' : N.connect a w1' with ⟨r', w2'⟩
    rw [f, f'] at k1 k2
    dsimp only at k1 k2
    subst k1
    cases r with
    | err e => exact ⟨rfl, ⟨hg, k2⟩, by simp⟩
    | panic => exact ⟨rfl, ⟨hg, k2⟩, by simp⟩
    | ok s =>
      refine ⟨rfl, ⟨?_, k2⟩, fun x hx => by simp only [Res.ok.injEq] at hx; rw [← hx]⟩
      dsimp only
      rw [poolGet_set_same, poolGet_set_same]

omit [CaseMap] [Writer σ] in
theorem getStream_apart (hN : Separate N view) {a : α} {url : Url} {cl : HttpClient α σ} {w : ω}
    (ha : (N.toStreamAddr url w).1 ≠ .ok a) :
    Agree view a (cl.getStream N url w).2 (cl, w) ∧ ∀ x, (cl.getStream N url w).1 = .ok x → x.1 ≠ a := by
  have hv := hN.lookup_view a url w
  unfold HttpClient.getStream
  rcases e : N.toStreamAddr url w with ⟨b | _ | _, w1⟩ <;> rw [e] at hv ha <;> dsimp only at hv ha ⊢
  · have hb : b ≠ a := fun h => ha (by rw [h])
    cases hp : poolGet b cl.streams with
    | some s => exact ⟨⟨rfl, hv⟩, fun x hx => by simp only [Res.ok.injEq] at hx; rw [← hx]; exact hb⟩
    | none =>
      dsimp only
      have k := hN.connect_view b a w1 (Ne.symm hb)
      rcases f : N.connect b w1 with ⟨s | _ | _, w2⟩ <;> rw [f] at k <;> dsimp only at k ⊢
      · refine ⟨⟨?_, k.trans hv⟩, fun x hx => by simp only [Res.ok.injEq] at hx; rw [← hx]; exact hb⟩
        exact poolGet_set_other (Ne.symm hb) s cl.streams
      · exact ⟨⟨rfl, k.trans hv⟩, by simp⟩
      · exact ⟨⟨rfl, k.trans hv⟩, by simp⟩
  · exact ⟨⟨rfl, hv⟩, by simp⟩
  · exact ⟨⟨rfl, hv⟩, by simp⟩

theorem request_agree (hN : Separate N view) {a : α} {url : Url} {cl cl' : HttpClient α σ} {w w' : ω} (method : HttpMethod)
    (h : Agree view a (cl, w) (cl', w')) (ha : (N.toStreamAddr url w).1 = .ok a) :
    (cl.request c N method (some url) w).1 = (cl'.request c N method (some url) w').1 ∧
      Agree view a (cl.request c N method (some url) w).2 (cl'.request c N method (some url) w').2 ∧
      ∀ x, (cl.request c N method (some url) w).1 = .ok x → x.1 = a := by
  unfold HttpClient.request
  dsimp only
  cases HttpRequestBuilder.new c (HttpUrl.tryFrom url) method with
  | err e => exact ⟨rfl, h, by simp⟩
  | panic => exact ⟨rfl, h, by simp⟩
  | ok b =>
    dsimp only
    obtain ⟨k1, k2, k3⟩ := getStream_agree hN h ha
    rcases e : cl.getStream N url w with ⟨r, cl1, w1⟩
    rcases e' : cl'.getStream N url w' with ⟨r', cl1', w1'⟩
    rw [e] at k1 k2 k3
    rw [e'] at k1 k2
    dsimp only at k1 k2 k3
    subst k1
    cases r with
    | err e => exact ⟨rfl, k2, by simp⟩
    | panic => exact ⟨rfl, k2, by simp⟩
    | ok x =>
      obtain ⟨a', s⟩ := x
      have : a' = a := k3 _ rfl
      subst this
      dsimp only
      cases b.send s with
      | error y =>
        refine ⟨rfl, ⟨?_, k2.2⟩, by simp⟩
        show poolGet a' (poolSet a' _ _) = poolGet a' (poolSet a' _ _)
        rw [poolGet_set_same, poolGet_set_same]
      | ok o => exact ⟨rfl, k2, fun x hx => by simp only [Res.ok.injEq] at hx; rw [← hx]⟩

theorem request_apart (hN : Separate N view) {a : α} {url : Url} {cl : HttpClient α σ} {w : ω} (method : HttpMethod)
    (ha : (N.toStreamAddr url w).1 ≠ .ok a) :
    Agree view a (cl.request c N method (some url) w).2 (cl, w) ∧
      ∀ x, (cl.request c N method (some url) w).1 = .ok x → x.1 ≠ a := by
  unfold HttpClient.request
  dsimp only
  cases HttpRequestBuilder.new c (HttpUrl.tryFrom url) method with
  | err e => exact ⟨⟨rfl, rfl⟩, by simp⟩
  | panic => exact ⟨⟨rfl, rfl⟩, by simp⟩
  | ok b =>
    dsimp only
    obtain ⟨k1, k2⟩ := getStream_apart hN (cl := cl) ha
    rcases e : cl.getStream N url w with ⟨x | _ | _, cl1, w1⟩ <;> rw [e] at k1 k2 <;> dsimp only at k1 k2 ⊢
    · obtain ⟨b', s⟩ := x
      have hb : b' ≠ a := k2 _ rfl
      dsimp only
      cases b.send s with
      | error y =>
        refine ⟨⟨?_, k1.2⟩, by simp⟩
        exact (poolGet_set_other (Ne.symm hb) _ _).trans k1.1
      | ok o => exact ⟨k1, fun x hx => by simp only [Res.ok.injEq] at hx; rw [← hx]; exact hb⟩
    · exact ⟨k1, by simp⟩
    · exact ⟨k1, by simp⟩

/-- A request that goes to `a`. -/
theorem exchange_agree (hN : Separate N view) {a : α} {cl cl' : HttpClient α σ} {w w' w0 : ω} (x : Exchange c σ β)
    (h : Agree view a (cl, w) (cl', w')) (hx : x.goesTo N w0 a = true) :
    (exchange N x cl w).1 = (exchange N x cl' w').1 ∧ Agree view a (exchange N x cl w).2 (exchange N x cl' w').2 := by
  obtain ⟨put, url, use⟩ := x
  unfold Exchange.goesTo at hx
  cases url with
  | none => simp at hx
  | some url =>
    dsimp only at hx
    have ha : (N.toStreamAddr url w).1 = .ok a := by
      rw [hN.lookup url w w0]
      cases hr : (N.toStreamAddr url w0).1 with
      | ok b => rw [hr] at hx; simp only [decide_eq_true_eq] at hx; rw [hx]
      | err e => rw [hr] at hx; simp at hx
      | panic => rw [hr] at hx; simp at hx
    have key := fun m => request_agree (c := c) hN m h ha
    have both : ∃ m, (∀ (cl : HttpClient α σ) w, (if put then cl.put c N (some url) w else cl.get c N (some url) w) =
        cl.request c N m (some url) w) := by
      cases put with
      | true => exact ⟨.Put, fun _ _ => rfl⟩
      | false => exact ⟨.Get, fun _ _ => rfl⟩
    obtain ⟨m, hm⟩ := both
    unfold exchange
    dsimp only
    rw [hm, hm]
    obtain ⟨k1, k2, k3⟩ := key m
    rcases e : cl.request c N m (some url) w with ⟨r, cl1, w1⟩
    rcases e' : cl'.request c N m (some url) w' with ⟨r', cl1', w1'⟩
    rw [e] at k1 k2 k3
    rw [e'] at k1 k2
    dsimp only at k1 k2 k3
    subst k1
    cases r with
    | err e => exact ⟨rfl, k2⟩
    | panic => exact ⟨rfl, k2⟩
    | ok y =>
      obtain ⟨a', o⟩ := y
      have : a' = a := k3 _ rfl
      subst this
      refine ⟨rfl, ?_, k2.2⟩
      show poolGet a' (poolSet a' _ _) = poolGet a' (poolSet a' _ _)
      rw [poolGet_set_same, poolGet_set_same]

/-- A request that does not go to `a`. -/
theorem exchange_apart (hN : Separate N view) {a : α} {cl : HttpClient α σ} {w w0 : ω} (x : Exchange c σ β)
    (hx : x.goesTo N w0 a = false) : Agree view a (exchange N x cl w).2 (cl, w) := by
  obtain ⟨put, url, use⟩ := x
  unfold Exchange.goesTo at hx
  cases url with
  | none =>
    unfold exchange
    cases put <;> exact ⟨rfl, rfl⟩
  | some url =>
    dsimp only at hx
    have ha : (N.toStreamAddr url w).1 ≠ .ok a := by
      rw [hN.lookup url w w0]
      intro hr
      rw [hr] at hx
      simp at hx
    have both : ∃ m, (∀ (cl : HttpClient α σ) w, (if put then cl.put c N (some url) w else cl.get c N (some url) w) =
        cl.request c N m (some url) w) := by
      cases put with
      | true => exact ⟨.Put, fun _ _ => rfl⟩
      | false => exact ⟨.Get, fun _ _ => rfl⟩
    obtain ⟨m, hm⟩ := both
    unfold exchange
    dsimp only
    rw [hm]
    obtain ⟨k1, k2⟩ := request_apart (c := c) hN (cl := cl) m ha
    rcases e : cl.request c N m (some url) w with ⟨y | _ | _, cl1, w1⟩ <;> rw [e] at k1 k2 <;> dsimp only at k1 k2 ⊢
    · obtain ⟨b, o⟩ := y
      refine ⟨?_, k1.2⟩
      exact (poolGet_set_other (Ne.symm (k2 _ rfl)) _ _).trans k1.1
    · exact k1
    · exact k1

theorem history_agree (hN : Separate N view) (a : α) (w0 : ω) (xs : List (Exchange c σ β)) {cl cl' : HttpClient α σ} {w w' : ω}
    (h : Agree view a (cl, w) (cl', w')) :
    ((xs.zip (history N xs cl w).1).filter fun p => p.1.goesTo N w0 a).map (·.2) =
        (history N (xs.filter fun x => x.goesTo N w0 a) cl' w').1 ∧
      Agree view a (history N xs cl w).2 (history N (xs.filter fun x => x.goesTo N w0 a) cl' w').2 := by
  induction xs generalizing cl cl' w w' with
  | nil => exact ⟨rfl, h⟩
  | cons x xs ih =>
    have hcons : ∀ (y : Exchange c σ β) (ys : List (Exchange c σ β)) (cl : HttpClient α σ) (w : ω), history N (y :: ys) cl w =
        ((exchange N y cl w).1 :: (history N ys (exchange N y cl w).2.1 (exchange N y cl w).2.2).1,
          (history N ys (exchange N y cl w).2.1 (exchange N y cl w).2.2).2) := fun _ _ _ _ => rfl
    cases hx : x.goesTo N w0 a with
    | true =>
      obtain ⟨k1, k2⟩ := exchange_agree hN x h hx
      obtain ⟨m1, m2⟩ := ih (cl := (exchange N x cl w).2.1) (w := (exchange N x cl w).2.2)
        (cl' := (exchange N x cl' w').2.1) (w' := (exchange N x cl' w').2.2) k2
      rw [List.filter_cons_of_pos (by simpa using hx), hcons, hcons]
      dsimp only
      rw [List.zip_cons_cons, List.filter_cons_of_pos (by simpa using hx), List.map_cons, m1]
      exact ⟨by rw [k1], m2⟩
    | false =>
      have k := exchange_apart hN (cl := cl) (w := w) x hx
      obtain ⟨m1, m2⟩ := ih (cl := (exchange N x cl w).2.1) (w := (exchange N x cl w).2.2) (cl' := cl') (w' := w')
        ⟨k.1.trans h.1, k.2.trans h.2⟩
      rw [List.filter_cons_of_neg (by simp [hx]), hcons]
      dsimp only
      rw [List.zip_cons_cons, List.filter_cons_of_neg (by simp [hx])]
      exact ⟨m1, m2⟩

/-- Requests to one server have nothing to do with requests to others. Let a client make requests to any servers, in any order, and
use their connections and read their answers in any way. For each address, the requests that go to it have the same outcomes, and
its connection is left in the same state, as if the client had made only these requests: whatever else is asked, whoever else
answers with whatever, fails to answer, or cannot be reached. The network is one in which connecting to an address is not affected
by connecting to others. -/
theorem C162_isolated (hN : Separate N view) (a : α) (w0 : ω) (xs : List (Exchange c σ β)) (cl : HttpClient α σ) (w : ω) :
    let mine := xs.filter fun x => x.goesTo N w0 a
    ((xs.zip (history N xs cl w).1).filter fun p => p.1.goesTo N w0 a).map (·.2) = (history N mine cl w).1 ∧
      connectionTo a (history N xs cl w).2.1 = connectionTo a (history N mine cl w).2.1 := by
  intro mine
  obtain ⟨h1, h2⟩ := history_agree hN a w0 xs (cl := cl) (cl' := cl) (w := w) (w' := w) ⟨rfl, rfl⟩
  exact ⟨h1, by rw [connectionTo_eq, connectionTo_eq]; exact h2.1⟩

/-- In particular, what was asked of others before and after does not matter: a connection that nobody asked for is not touched. -/
theorem C162_untouched (hN : Separate N view) (a : α) (w0 : ω) (xs : List (Exchange c σ β)) (cl : HttpClient α σ) (w : ω)
    (h : ∀ x ∈ xs, x.goesTo N w0 a = false) : connectionTo a (history N xs cl w).2.1 = connectionTo a cl := by
  have := (C162_isolated hN a w0 xs cl w).2
  rw [show xs.filter (fun x => x.goesTo N w0 a) = [] from List.filter_eq_nil_iff.2 (by simpa using h)] at this
  exact this

end

/-! Two servers, one of which answers with nonsense from its second connection on. -/

/-- A network in which an address is a host name; the world counts the connections to each. -/
def fewServers : StreamConnector (Bytes → Nat) Bytes (Duplex SliceReader Sink) where
  connect a w := (.ok ⟨⟨if w a = 0 then b!"HTTP/1.1 200 OK\r\nContent-Length: 2\r\n\r\n" ++ a ++ a else b!"?"⟩, ⟨[], 0, []⟩⟩,
    fun b => if b = a then w b + 1 else w b)
  toStreamAddr url w := (match url.host with | some h => .ok h | none => .err .parse, w)

theorem fewServers_separate : Separate fewServers (fun a w => w a) where
  lookup _ _ _ := rfl
  lookup_view _ _ _ := rfl
  connect a w w' h := by
    unfold fewServers
    dsimp only at h ⊢
    rw [h]
    simp [h]
  connect_view a b w h := by
    unfold fewServers
    simp [h]

/-- A request for `/` of a host. -/
def askFewServers (h : Bytes) : Ask :=
  ⟨false, { scheme := b!"http", host := some h, port := none, path := b!"/", query := none, fragment := none }, [], [8, 8]⟩

theorem isolated_key (c : Cfg) : let _ := asciiCase
    (match (history fewServers (([b!"a", b!"b", b!"a"].map askFewServers).map (Ask.exchange (c := c))) ⟨[]⟩ (fun _ => 0)).1 with
    | [.ok (.got .OK _ [.ok x, _]), .ok (.got .OK _ [.ok y, _]), .ok (.failed _)] => x = b!"aa" && y = b!"bb"
    | _ => false) = true := by
  rcases c with ⟨_ | _⟩ <;> decide +kernel

/-- Of three requests two go to `a`; the client gets two responses and then (from the used-up connection) an error. The outcomes
of the two for `a` are those it would have had without the request to `b`. -/
example (c : Cfg) : let _ := asciiCase
    let xs := ([b!"a", b!"b", b!"a"].map askFewServers).map (Ask.exchange (c := c))
    (xs.filter fun x => x.goesTo fewServers (fun _ => 0) b!"a").length = 2 ∧
    ((xs.zip (history fewServers xs ⟨[]⟩ (fun _ => 0)).1).filter fun p => p.1.goesTo fewServers (fun _ => 0) b!"a").map (·.2) =
      (history fewServers (xs.filter fun x => x.goesTo fewServers (fun _ => 0) b!"a") ⟨[]⟩ (fun _ => 0)).1 := by
  intro _ xs
  refine ⟨?_, (C162_isolated fewServers_separate b!"a" _ xs ⟨[]⟩ (fun _ => 0)).1⟩
  rcases c with ⟨_ | _⟩ <;> decide +kernel

/-- Requests to `b` alone leave the connection to `a` as it is. -/
example [CaseMap] (c : Cfg) (s : Duplex SliceReader Sink) :
    connectionTo b!"a" (history fewServers [(askFewServers b!"b").exchange (c := c)] ⟨[(b!"a", s)]⟩ (fun _ => 0)).2.1 =
      connectionTo b!"a" ⟨[(b!"a", s)]⟩ :=
  C162_untouched fewServers_separate b!"a" (fun _ => 0) _ _ _ (by intro x hx; simp only [List.mem_singleton] at hx; rw [hx]; rfl)

end HttpIo
