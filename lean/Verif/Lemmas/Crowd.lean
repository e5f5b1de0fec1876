import Verif.Spec.Crowd
import Verif.Lemmas.Holding

/-! Several clients at the same time, for C138. -/

namespace HttpIo
open Spec

/-! ### Sums over two lists -/

theorem zipSum_set {α β : Type} (f : α → β → Nat) {as : List α} {bs : List β} {i : Nat} {a : α} {b b' : β}
    (ha : as[i]? = some a) (hb : bs[i]? = some b) :
    (List.zipWith f as (bs.set i b')).sum + f a b = (List.zipWith f as bs).sum + f a b' := by
  induction as generalizing bs i with
  | nil => simp at ha
  | cons x xs ih =>
    cases bs with
    | nil => simp at hb
    | cons y ys =>
      cases i with
      | zero =>
        simp only [List.getElem?_cons_zero, Option.some.injEq] at ha hb
        subst ha; subst hb
        simp only [List.set_cons_zero, List.zipWith_cons_cons, List.sum_cons]
        omega
      | succ i =>
        simp only [List.getElem?_cons_succ] at ha hb
        have := ih ha hb
        simp only [List.set_cons_succ, List.zipWith_cons_cons, List.sum_cons]
        omega

/-! ### The connections -/

section
variable {ps : List Party} {srv : List Link → Nat → Sock → Sock} {ku kd : Nat}

theorem Spec.Party.Moves.step {p : Party} {server : Sock → Sock} {a b : Link} (h : p.Moves ku kd server a b) :
    Link.Step p.client server p.req p.resp ku kd a b := by
  unfold Party.Moves at h
  split at h
  · exact h.1
  · exact h

theorem Spec.Party.Moves.down {p : Party} {server : Sock → Sock} {a b : Link} (h : p.Moves ku kd server a b) (hp : p.holds = true)
    (ha : a.down + a.clientFed.sum = a.serverRoom.sum) : b.down + b.clientFed.sum = b.serverRoom.sum := by
  unfold Party.Moves at h
  rw [if_pos hp] at h
  obtain ⟨h2, h3⟩ := h
  cases h2 with
  | clientWrite => exact ha
  | clientRead k _ _ _ h => rw [List.sum_append]; simp; omega
  | clientClosed => exact ha
  | serverRead => exact ha
  | serverWrite k => rw [List.sum_append]; simp; omega
  | dropUp => exact ha
  | dropDown hw h => have := h3 hw; dsimp only at this; omega

/-- Once the server is done with a connection, it stays so. -/
theorem Link.Step.stays {client server : Sock → Sock} {req resp : Bytes} {a b : Link}
    (h : Link.Step client server req resp ku kd a b) (ha : (a.serverEnd server req).waits = none) :
    (b.serverEnd server req).waits = none := by
  cases h with
  | serverRead k hw => rw [ha] at hw; simp at hw
  | serverWrite k hw => rw [ha] at hw; simp at hw
  | _ => exact ha

/-- A client whose connection has not been accepted can only write. -/
theorem early_step {p : Party} {server : Sock → Sock} {a b : Link} (h : p.Moves ku kd (fun s => s.wait (.read 1)) a b)
    (hf : b.serverFed = a.serverFed) (hd : a.down = 0) :
    p.Moves ku kd server a b ∧ b.serverRoom = a.serverRoom := by
  have hw : ∀ a : Link, (a.serverEnd (fun s => s.wait (.read 1)) p.req).waits = some (.read 1) := fun a => rfl
  have key : Link.Step p.client (fun s => s.wait (.read 1)) p.req p.resp ku kd a b →
      Link.Step p.client server p.req p.resp ku kd a b ∧ b.serverRoom = a.serverRoom := by
    intro h
    cases h with
    | clientWrite k a1 a2 a3 a4 => exact ⟨.clientWrite k a1 a2 a3 a4, rfl⟩
    | clientRead k a1 a2 a3 a4 => omega
    | clientClosed a1 a2 a3 => rw [hw] at a3; simp at a3
    | serverRead k => simp at hf
    | serverWrite k a1 => rw [hw] at a1; simp at a1
    | dropUp a1 => rw [hw] at a1; simp at a1
    | dropDown _ a2 => omega
  have h2 := key h.step
  refine ⟨?_, h2.2⟩
  unfold Party.Moves at h ⊢
  split at h
  · rw [if_pos (by assumption)]; exact ⟨h2.1, h.2⟩
  · rw [if_neg (by assumption)]; exact h2.1

/-- What is known of the programs. `sv` are the server's programs on the connections, and `left` says how much of the requests they
leave unread. -/
structure Shaped (ps : List Party) (srv : List Link → Nat → Sock → Sock) (sv : Nat → Sock → Sock) (left : Nat → Nat) : Prop where
  same : ∀ links : List Link, links.length = ps.length → ∀ i, i < ps.length → srv links i = sv i
  client : ∀ (i : Nat) (p : Party), ps[i]? = some p → ClientShape p.client p.req p.resp
  server : ∀ (i : Nat) (p : Party), ps[i]? = some p → ServerShape (sv i) p.req p.resp (left i)

/-- What holds at all times. -/
structure CrowdInv (ps : List Party) (sv : Nat → Sock → Sock) (ku kd : Nat) (x : Crowd) : Prop where
  length : x.links.length = ps.length
  served : x.served ≤ ps.length
  link : ∀ (i : Nat) (p : Party) (a : Link), ps[i]? = some p → x.links[i]? = some a →
    LinkInv p.client (sv i) p.req p.resp ku kd a ∧ (p.holds = true → a.down + a.clientFed.sum = a.serverRoom.sum) ∧
    (x.served < i → a.serverFed = [] ∧ a.serverRoom = []) ∧ (i < x.served → (a.serverEnd (sv i) p.req).waits = none)

/-- How much there is still to do. -/
def Spec.Crowd.todo (ps : List Party) (x : Crowd) : Nat :=
  (List.zipWith (fun (p : Party) (a : Link) => a.todo p.req p.resp) ps x.links).sum + (ps.length - x.served)

theorem lt_of_some {α : Type} {l : List α} {i : Nat} {a : α} (h : l[i]? = some a) : i < l.length := by
  rw [List.getElem?_eq_some_iff] at h
  exact h.1

/-- A step on one of the connections. -/
theorem crowd_set {sv : Nat → Sock → Sock} {left : Nat → Nat} (hs : Shaped ps srv sv left) {x : Crowd} (hi : CrowdInv ps sv ku kd x)
    {i : Nat} {p : Party} {a b : Link} (h1 : ps[i]? = some p) (h2 : x.links[i]? = some a) (hm : p.Moves ku kd (sv i) a b)
    (he : x.served < i → b.serverFed = a.serverFed ∧ b.serverRoom = a.serverRoom) :
    CrowdInv ps sv ku kd { x with links := x.links.set i b } ∧ Crowd.todo ps { x with links := x.links.set i b } < x.todo ps := by
  obtain ⟨i1, i2, i3, i4⟩ := hi.link i p a h1 h2
  have hL := hs.server i p h1
  obtain ⟨j1, j2⟩ := linkInv_step (hs.client i p h1) hL i1 hm.step
  refine ⟨⟨by rw [← hi.length]; simp, hi.served, fun k p' a' k1 k2 => ?_⟩, ?_⟩
  · by_cases hk : k = i
    · subst hk
      rw [h1, Option.some.injEq] at k1
      subst k1
      dsimp only at k2
      rw [List.getElem?_set_self (lt_of_some h2), Option.some.injEq] at k2
      subst k2
      refine ⟨j1, fun hp => hm.down hp (i2 hp), fun hlt => ?_, fun hlt => hm.step.stays (i4 hlt)⟩
      obtain ⟨g1, g2⟩ := he hlt
      rw [g1, g2]; exact i3 hlt
    · dsimp only at k2
      rw [List.getElem?_set_ne (fun h => hk h.symm)] at k2
      exact hi.link k p' a' k1 k2
  · unfold Crowd.todo
    have := zipSum_set (fun (p : Party) (a : Link) => a.todo p.req p.resp) (b' := b) h1 h2
    dsimp only at this ⊢
    omega

theorem crowdInv_step {sv : Nat → Sock → Sock} {left : Nat → Nat} (hs : Shaped ps srv sv left) {x y : Crowd} (hi : CrowdInv ps sv ku kd x)
    (h : Crowd.Step ps srv ku kd x y) : CrowdInv ps sv ku kd y ∧ y.todo ps < x.todo ps := by
  cases h with
  | @move p a b i h1 h2 h3 h4 =>
    rw [hs.same _ hi.length i (lt_of_some h1)] at h4
    exact crowd_set hs hi h1 h2 h4 fun h => by omega
  | @early p a b i h1 h2 h3 h4 h5 =>
    obtain ⟨i1, i2, i3, i4⟩ := hi.link i p a h1 h2
    have hd : a.down = 0 := by
      have := i1.down.1
      rw [(i3 h3).2] at this
      simp at this
      omega
    obtain ⟨g1, g2⟩ := early_step (server := sv i) h4 h5 hd
    exact crowd_set hs hi h1 h2 g1 fun _ => ⟨h5, g2⟩
  | @next p a h1 h2 h3 =>
    have hlt := lt_of_some h1
    rw [hs.same _ hi.length _ hlt] at h3
    refine ⟨⟨hi.length, hlt, fun k p' a' k1 k2 => ?_⟩, by unfold Crowd.todo; dsimp only; omega⟩
    obtain ⟨i1, i2, i3, i4⟩ := hi.link k p' a' k1 k2
    refine ⟨i1, i2, fun h => i3 (by dsimp only at h; omega), fun h => ?_⟩
    dsimp only at h
    by_cases hk : k = x.served
    · subst hk
      rw [h1, Option.some.injEq] at k1
      rw [h2, Option.some.injEq] at k2
      subst k1; subst k2
      exact h3
    · exact i4 (by omega)

theorem init_getElem {α : Type} {l : List α} {i : Nat} {a : Link} (h : (l.map fun _ => Link.init)[i]? = some a) : a = .init := by
  rw [List.getElem?_map] at h
  cases hx : l[i]? with
  | none => rw [hx] at h; simp at h
  | some v => rw [hx] at h; simpa using h.symm

theorem crowdInv_init {α : Type} (l : List α) (hl : l.length = ps.length) (sv : Nat → Sock → Sock) :
    CrowdInv ps sv ku kd ⟨l.map fun _ => .init, 0⟩ := by
  refine ⟨by simp [hl], Nat.zero_le _, fun i p a h1 h2 => ?_⟩
  have := init_getElem h2
  subst this
  exact ⟨linkInv_init ku kd, fun _ => rfl, fun _ => ⟨rfl, rfl⟩, fun h => by simp at h⟩

theorem todo_init {α : Type} (l : List α) (hl : l.length = ps.length) :
    Crowd.todo ps ⟨l.map fun _ => .init, 0⟩ = (ps.map fun p => 2 * (p.req.length + p.resp.length) + 2).sum := by
  unfold Crowd.todo
  dsimp only
  rw [Nat.sub_zero]
  induction ps generalizing l with
  | nil => simp
  | cons p ps ih =>
    cases l with
    | nil => simp at hl
    | cons v l =>
      have := ih l (by simpa using hl)
      simp only [List.map_cons, List.zipWith_cons_cons, List.sum_cons, List.length_cons]
      rw [← this]
      have : Link.todo p.req p.resp .init = 2 * (p.req.length + p.resp.length) + 1 := by
        unfold Link.todo; simp [Link.init]; omega
      omega

theorem crowdInv_run {sv : Nat → Sock → Sock} {left : Nat → Nat} (hs : Shaped ps srv sv left) {α : Type} (l : List α) (hl : l.length = ps.length)
    {n : Nat} {x : Crowd} (h : Crowd.Run ps srv ku kd n ⟨l.map fun _ => .init, 0⟩ x) :
    CrowdInv ps sv ku kd x ∧ n + x.todo ps ≤ (ps.map fun p => 2 * (p.req.length + p.resp.length) + 2).sum := by
  generalize hx0 : (⟨l.map fun _ => .init, 0⟩ : Crowd) = x0 at h
  induction h with
  | refl x =>
    subst hx0
    exact ⟨crowdInv_init l hl sv, by rw [todo_init l hl]; omega⟩
  | step h1 h2 ih =>
    obtain ⟨i1, i2⟩ := ih hx0
    obtain ⟨j1, j2⟩ := crowdInv_step hs i1 h2
    exact ⟨j1, by omega⟩

/-- As long as not all have finished there is a step. -/
theorem crowd_progress {sv : Nat → Sock → Sock} {left : Nat → Nat} (hs : Shaped ps srv sv left) (hu : 1 ≤ ku) (hd : 1 ≤ kd)
    (hfit : ∀ (i : Nat) (p : Party), ps[i]? = some p → left i ≤ ku ∨ p.resp.length ≤ kd) {x : Crowd} (hi : CrowdInv ps sv ku kd x)
    (hleft : ∀ (i : Nat) (p : Party) (a : Link), ps[i]? = some p → x.links[i]? = some a → p.holds = true →
      (a.clientEnd p.client p.resp).waits = none → p.resp.length ≤ a.clientFed.sum + kd) :
    x.AllDone ps srv ∨ ∃ y, Crowd.Step ps srv ku kd x y := by
  have one : ∀ (i : Nat) (p : Party) (a : Link), ps[i]? = some p → x.links[i]? = some a → i ≤ x.served →
      Done p.client (sv i) p.req p.resp a ∨ ∃ y, Crowd.Step ps srv ku kd x y := by
    intro i p a h1 h2 h3
    obtain ⟨i1, i2, _, _⟩ := hi.link i p a h1 h2
    have hL := hs.server i p h1
    have hsame := hs.same _ hi.length i (lt_of_some h1)
    cases hp : p.holds with
    | false =>
      rcases linkInv_progress (hs.client i p h1) hL hu hd (hfit i p h1) i1 with h | ⟨b, hb⟩
      · exact .inl h
      · refine .inr ⟨_, .move i h1 h2 h3 (b := b) ?_⟩
        rw [hsame]
        unfold Party.Moves
        rw [hp]
        exact hb
    | true =>
      rcases held_progress (hs.client i p h1) hL hu hd (hfit i p h1) i1 (i2 hp) (hleft i p a h1 h2 hp) with h | ⟨b, hb⟩
      · exact .inl h
      · refine .inr ⟨_, .move i h1 h2 h3 (b := b) ?_⟩
        rw [hsame]
        unfold Party.Moves
        rw [hp]
        exact hb
  by_cases hser : x.served < ps.length
  · obtain ⟨p, hp⟩ : ∃ p, ps[x.served]? = some p := ⟨_, List.getElem?_eq_getElem hser⟩
    obtain ⟨a, ha⟩ : ∃ a, x.links[x.served]? = some a := ⟨_, List.getElem?_eq_getElem (by rw [hi.length]; exact hser)⟩
    rcases one _ p a hp ha (Nat.le_refl _) with h | h
    · refine .inr ⟨_, .next hp ha ?_⟩
      rw [hs.same _ hi.length _ hser]
      exact h.2
    · exact .inr h
  · by_cases hex : ∃ y, Crowd.Step ps srv ku kd x y
    · exact .inr hex
    · refine .inl fun i p a h1 h2 => ?_
      have hlt := lt_of_some h1
      rw [hs.same _ hi.length i hlt]
      rcases one i p a h1 h2 (by omega) with h | h
      · exact h
      · exact absurd h hex

/-- If all finish in every schedule, then in one in which a given client gets one byte at a time. -/
theorem crowd_ones {sv : Nat → Sock → Sock} {left : Nat → Nat} (hs : Shaped ps srv sv left) {α : Type} (l : List α) (hl : l.length = ps.length)
    (hall : ∀ n x, Crowd.Run ps srv ku kd n ⟨l.map fun _ => .init, 0⟩ x →
      x.AllDone ps srv ∨ ∃ y, Crowd.Step ps srv ku kd x y)
    {i : Nat} {p : Party} (hp : ps[i]? = some p)
    {N : Nat} (hN : ∀ room ended, (∀ x ∈ room, 0 < x) → ∀ n,
      (p.client (.start p.resp true (List.replicate N 1) ended room)).waits ≠ some (.read n)) :
    ∃ n x a, Crowd.Run ps srv ku kd n ⟨l.map fun _ => .init, 0⟩ x ∧ x.AllDone ps srv ∧ x.links[i]? = some a ∧
      ∃ f, f ≤ N ∧ a.clientFed = List.replicate f 1 := by
  have key : ∀ (t n : Nat) (x : Crowd) (a : Link), x.todo ps ≤ t → Crowd.Run ps srv ku kd n ⟨l.map fun _ => .init, 0⟩ x →
      x.links[i]? = some a → (∃ f, f ≤ N ∧ a.clientFed = List.replicate f 1) →
      ∃ n x a, Crowd.Run ps srv ku kd n ⟨l.map fun _ => .init, 0⟩ x ∧ x.AllDone ps srv ∧ x.links[i]? = some a ∧
        ∃ f, f ≤ N ∧ a.clientFed = List.replicate f 1 := by
    intro t
    induction t with
    | zero =>
      intro n x a ht hx ha hf
      rcases hall n x hx with h | ⟨y, h⟩
      · exact ⟨n, x, a, hx, h, ha, hf⟩
      · have := (crowdInv_step hs (crowdInv_run hs l hl hx).1 h).2
        omega
    | succ t ih =>
      intro n x a ht hx ha hf
      rcases hall n x hx with h | ⟨y, h⟩
      · exact ⟨n, x, a, hx, h, ha, hf⟩
      have hi := (crowdInv_run hs l hl hx).1
      have go : ∀ y a', Crowd.Step ps srv ku kd x y → y.links[i]? = some a' → (∃ f, f ≤ N ∧ a'.clientFed = List.replicate f 1) →
          ∃ n x a, Crowd.Run ps srv ku kd n ⟨l.map fun _ => .init, 0⟩ x ∧ x.AllDone ps srv ∧ x.links[i]? = some a ∧
            ∃ f, f ≤ N ∧ a.clientFed = List.replicate f 1 := by
        intro y a' hy ha' hf'
        have := (crowdInv_step hs hi hy).2
        exact ih (n + 1) y a' (by omega) (.step hx hy) ha' hf'
      have hlt := lt_of_some ha
      cases h with
      | @move p' a' b k h1 h2 h3 h4 =>
        by_cases hk : k = i
        · subst hk
          rw [hp, Option.some.injEq] at h1
          rw [ha, Option.some.injEq] at h2
          subst h1; subst h2
          -- one byte at a time
          have hnew : ∃ b', p.Moves ku kd (srv x.links k) a b' ∧ ∃ f, f ≤ N ∧ b'.clientFed = List.replicate f 1 := by
            have keep : b.clientFed = a.clientFed → ∃ b', p.Moves ku kd (srv x.links k) a b' ∧
                ∃ f, f ≤ N ∧ b'.clientFed = List.replicate f 1 := fun hb => ⟨b, h4, by rw [hb]; exact hf⟩
            have hst := h4.step
            generalize srv x.links k = server at *
            cases hst with
            | @clientRead m j a1 a2 a3 a4 =>
              obtain ⟨f, hf1, hf2⟩ := hf
              have hne : f ≠ N := by
                rintro rfl
                refine hN a.clientRoom a.clientEnded (hi.link k p a hp ha).1.pos.1 m ?_
                rw [← hf2]; exact a1
              have hstep := Link.Step.clientRead (client := p.client) (server := server) (req := p.req) (resp := p.resp)
                (ku := ku) (kd := kd) (x := a) 1 a1 (by omega) (by omega) (by omega)
              refine ⟨{ a with clientFed := a.clientFed ++ [1], down := a.down - 1 }, ?_, f + 1, by omega,
                by dsimp only; rw [hf2, List.replicate_succ']⟩
              unfold Party.Moves
              split
              · exact ⟨hstep, fun hn => by rw [hn] at a1; simp at a1⟩
              · exact hstep
            | _ => exact keep rfl
          obtain ⟨b', hb1, hb2⟩ := hnew
          exact go _ b' (.move k hp ha h3 hb1) (by dsimp only; rw [List.getElem?_set_self hlt]) hb2
        · exact go _ a (.move k h1 h2 h3 h4) (by dsimp only; rw [List.getElem?_set_ne hk]; exact ha) hf
      | @early p' a' b k h1 h2 h3 h4 h5 =>
        by_cases hk : k = i
        · subst hk
          rw [hp, Option.some.injEq] at h1
          rw [ha, Option.some.injEq] at h2
          subst h1; subst h2
          obtain ⟨i1, _, i3, _⟩ := hi.link k p a hp ha
          have hd : a.down = 0 := by
            have := i1.down.1
            rw [(i3 h3).2] at this
            simp at this
            omega
          have hb : b.clientFed = a.clientFed := by
            have hst := h4.step
            cases hst with
            | clientRead j a1 a2 a3 a4 => omega
            | _ => rfl
          exact go _ b (.early k hp ha h3 h4 h5) (by dsimp only; rw [List.getElem?_set_self hlt]) (by rw [hb]; exact hf)
        · exact go _ a (.early k h1 h2 h3 h4 h5) (by dsimp only; rw [List.getElem?_set_ne hk]; exact ha) hf
      | next h1 h2 h3 => exact go _ a (.next h1 h2 h3) ha hf
  have h0 : (l.map fun _ => Link.init)[i]? = some .init := by
    have : i < l.length := by rw [hl]; exact lt_of_some hp
    rw [List.getElem?_map, List.getElem?_eq_getElem this]; rfl
  exact key _ 0 _ .init (Nat.le_refl _) (.refl _) h0 ⟨0, Nat.zero_le _, rfl⟩

/-- If on a connection more of the request is left unread than the pipe holds, and the answer does not fit into the other pipe, then
not all finish in every schedule. -/
theorem crowd_never {sv : Nat → Sock → Sock} {left : Nat → Nat} (hs : Shaped ps srv sv left) {α : Type} (l : List α)
    (hl : l.length = ps.length)
    (hall : ∀ n x, Crowd.Run ps srv ku kd n ⟨l.map fun _ => .init, 0⟩ x →
      x.AllDone ps srv ∨ ∃ y, Crowd.Step ps srv ku kd x y)
    {i : Nat} {p : Party} (hp : ps[i]? = some p) (hu : ku < left i) (hd : kd < p.resp.length) (hle : left i ≤ p.req.length)
    (hN : ∀ room, (∀ x ∈ room, 0 < x) → ∀ n,
      (sv i (.start p.req false (List.replicate (p.req.length - left i) 1) false room)).waits ≠ some (.read n)) : False := by
  have key : ∀ (t n : Nat) (x : Crowd) (a : Link), x.todo ps ≤ t → Crowd.Run ps srv ku kd n ⟨l.map fun _ => .init, 0⟩ x →
      x.links[i]? = some a → a.clientFed = [] → a.serverRoom.sum ≤ kd →
      (∃ f, f ≤ p.req.length - left i ∧ a.serverFed = List.replicate f 1) → False := by
    intro t
    induction t with
    | zero =>
      intro n x a ht hx ha hcf hsr hf
      have hi := (crowdInv_run hs l hl hx).1
      obtain ⟨i1, _⟩ := hi.link i p a hp ha
      rcases hall n x hx with h | ⟨y, h⟩
      · have h1 := (h i p a hp ha).2
        rw [hs.same _ hi.length i (lt_of_some hp)] at h1
        have := ((hs.server i p hp _ _ i1.pos.2.2.1 i1.pos.2.2.2).2.2.2 h1).1
        omega
      · have := (crowdInv_step hs hi h).2
        omega
    | succ t ih =>
      intro n x a ht hx ha hcf hsr hf
      have hi := (crowdInv_run hs l hl hx).1
      have hsame := hs.same _ hi.length i (lt_of_some hp)
      obtain ⟨i1, _, i3, _⟩ := hi.link i p a hp ha
      obtain ⟨f, hf1, hf2⟩ := hf
      have hsw : (a.serverEnd (sv i) p.req).waits ≠ none := fun h => by
        have := ((hs.server i p hp _ _ i1.pos.2.2.1 i1.pos.2.2.2).2.2.2 h).1
        omega
      have hup := i1.up.2 hsw
      rw [hf2] at hup
      simp only [List.sum_replicate_nat, Nat.mul_one] at hup
      have hroom := i1.upRoom
      obtain ⟨_, _, c2, c3⟩ := hs.client i p hp a.clientFed a.clientRoom a.clientEnded i1.pos.2.1 i1.pos.1
      have hcw : (a.clientEnd p.client p.resp).waits ≠ none := fun h => by have := c3 h; omega
      have hcr : ∀ n, (a.clientEnd p.client p.resp).waits ≠ some (.read n) := fun n h => by have := (c2 n h).2.1; omega
      have hdown := i1.down.2 hcw
      rw [hcf] at hdown
      simp only [List.sum_nil, Nat.add_zero] at hdown
      have hlt := lt_of_some ha
      rcases hall n x hx with h | ⟨y, h⟩
      · have h1 := (h i p a hp ha).2
        rw [hsame] at h1
        exact hsw h1
      have go : ∀ y a', Crowd.Step ps srv ku kd x y → y.links[i]? = some a' → a'.clientFed = [] → a'.serverRoom.sum ≤ kd →
          (∃ f, f ≤ p.req.length - left i ∧ a'.serverFed = List.replicate f 1) → False := by
        intro y a' hy ha' h1 h2 h3
        have := (crowdInv_step hs hi hy).2
        exact ih (n + 1) y a' (by omega) (.step hx hy) ha' h1 h2 h3
      cases h with
      | @move p' a' b k h1 h2 h3 h4 =>
        by_cases hk : k = i
        · subst hk
          rw [hp, Option.some.injEq] at h1
          rw [ha, Option.some.injEq] at h2
          subst h1; subst h2
          -- one byte at a time
          have hnew : ∃ b', p.Moves ku kd (srv x.links k) a b' ∧ b'.clientFed = [] ∧ b'.serverRoom.sum ≤ kd ∧
              ∃ f, f ≤ p.req.length - left k ∧ b'.serverFed = List.replicate f 1 := by
            have keep : b.clientFed = [] → b.serverRoom.sum ≤ kd → b.serverFed = a.serverFed →
                ∃ b', p.Moves ku kd (srv x.links k) a b' ∧ b'.clientFed = [] ∧ b'.serverRoom.sum ≤ kd ∧
                  ∃ f, f ≤ p.req.length - left k ∧ b'.serverFed = List.replicate f 1 := fun b1 b2 b3 =>
              ⟨b, h4, b1, b2, f, hf1, by rw [b3]; exact hf2⟩
            have hst := h4.step
            rw [hsame] at hst
            cases hst with
            | clientWrite j a1 => exact keep hcf hsr rfl
            | clientRead j a1 => exact absurd a1 (hcr _)
            | clientClosed a1 => exact absurd a1 (hcr _)
            | @serverRead m j a1 a2 a3 a4 =>
              have hne : f ≠ p.req.length - left k := by
                rintro rfl
                refine hN a.serverRoom i1.pos.2.2.2 m ?_
                rw [← hf2]; exact a1
              have hstep := Link.Step.serverRead (client := p.client) (server := sv k) (req := p.req) (resp := p.resp)
                (ku := ku) (kd := kd) (x := a) 1 a1 (by omega) (by omega) (by omega)
              refine ⟨{ a with serverFed := a.serverFed ++ [1], up := a.up - 1 }, ?_, hcf, hsr, f + 1, by omega,
                by dsimp only; rw [hf2, List.replicate_succ']⟩
              rw [hsame]
              unfold Party.Moves
              split
              · exact ⟨hstep, fun hn => absurd hn hcw⟩
              · exact hstep
            | serverWrite j a1 a2 a3 a4 =>
              refine keep hcf ?_ rfl
              dsimp only
              rw [List.sum_append]
              simp only [List.sum_cons, List.sum_nil]
              omega
            | dropUp a1 => exact absurd a1 hsw
            | dropDown a1 => exact absurd a1 hcw
          obtain ⟨b', hb1, hb2, hb3, hb4⟩ := hnew
          exact go _ b' (.move k hp ha h3 hb1) (by dsimp only; rw [List.getElem?_set_self hlt]) hb2 hb3 hb4
        · exact go _ a (.move k h1 h2 h3 h4) (by dsimp only; rw [List.getElem?_set_ne hk]; exact ha) hcf hsr ⟨f, hf1, hf2⟩
      | @early p' a' b k h1 h2 h3 h4 h5 =>
        by_cases hk : k = i
        · subst hk
          rw [hp, Option.some.injEq] at h1
          rw [ha, Option.some.injEq] at h2
          subst h1; subst h2
          have hd0 : a.down = 0 := by
            have := i1.down.1
            rw [(i3 h3).2] at this
            simp at this
            omega
          have hb : b.clientFed = a.clientFed := by
            have hst := h4.step
            cases hst with
            | clientRead j a1 a2 a3 a4 => omega
            | _ => rfl
          have hb2 := (early_step (server := sv k) h4 h5 hd0).2
          exact go _ b (.early k hp ha h3 h4 h5) (by dsimp only; rw [List.getElem?_set_self hlt]) (by rw [hb]; exact hcf)
            (by rw [hb2]; exact hsr) ⟨f, hf1, by rw [h5]; exact hf2⟩
        · exact go _ a (.early k h1 h2 h3 h4 h5) (by dsimp only; rw [List.getElem?_set_ne hk]; exact ha) hcf hsr ⟨f, hf1, hf2⟩
      | next h1 h2 h3 => exact go _ a (.next h1 h2 h3) ha hcf hsr ⟨f, hf1, hf2⟩
  have h0 : (l.map fun _ => Link.init)[i]? = some .init := by
    have : i < l.length := by rw [hl]; exact lt_of_some hp
    rw [List.getElem?_map, List.getElem?_eq_getElem this]; rfl
  exact key _ 0 _ .init (Nat.le_refl _) (.refl _) h0 rfl (Nat.zero_le _) ⟨0, Nat.zero_le _, rfl⟩

end

end HttpIo
